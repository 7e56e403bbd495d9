import Verif.Lemmas.OmpNear
import Verif.Props.DoubleDriver
import Verif.Props.OmpDriver

/-!
# Property C111: a whole call of the OpenMP variant on doubles

C92 is about exact arithmetic.  Here is the call without pruning on IEEE doubles: from the names of the options and the
caller's array to the returned clustering, for every initialisation and every distribution of the rows that the OpenMP
runtime may choose.
-/

namespace Knor.Driver

open Knor Knor.Par Knor.Partition Knor.Spec Knor.NearLloyd Knor.Kmeans Knor.Distr Knor.Init Knor.Io

variable {R S B : Type _} {k n : Nat} [Zero R] [Add R] [Sub R] [Mul R] [Div R] [IntCast R] [NatCast R] [LT R] [LE R]
  {fin : R → Prop} {val : R → ℝ} {sqrt abs' : R → R} {big : R}

omit [Zero R] [Add R] [Sub R] [Mul R] [IntCast R] [LT R] in
/-- A result only depends on the rows that exist, and larger errors are allowed. -/
theorem nearOrder_mono {dist : (Fin n → ℝ) → (Fin n → ℝ) → ℝ} (hdist : ∀ x y, 0 ≤ dist x y) {γ ζ e e' η : ℝ}
    (he : e ≤ e') {N : Nat} {data data' : Nat → Row R n} (hd : ∀ r, r < N → data r = data' r)
    {cents0 : Fin k → Fin n → R} {tol : R} {maxIters iters : Nat} {order : Prop}
    {assign : Nat → Option (Fin k)} {counts : Fin k → Int} {cents : Fin k → Fin n → R}
    (h : NearLloydOrder fin val dist γ ζ e η N data cents0 tol maxIters order iters assign counts cents) :
    NearLloydOrder fin val dist γ ζ e' η N data' cents0 tol maxIters order iters assign counts cents := by
  have hm : ∀ (f : R → ℝ) (a : Nat → Option (Fin k)) c j, memberMean N (fun r j => f (data r j)) a c j =
      memberMean N (fun r j => f (data' r j)) a c j := fun f a c j =>
    memberMean_data (fun r hr => by rw [hd r hr]) a c j
  obtain ⟨m, tr, h1, h2, h3, h4, h5, h6, h7, h8, h9⟩ := h
  refine ⟨m, tr, h1, h2, ⟨h3.cents, h3.unassigned, fun i hi => ⟨fun r hr => ?_, fun c j => ?_⟩⟩, h4, h5, h6, h7, h8,
    fun ho hch r hr => ?_⟩
  · rw [← hd r hr]; exact (h3.step i hi).assigned r hr
  · rw [← hm val, ← hm fun x => |val x|]
    refine ((h3.step i hi).means c j).trans (add_le_add (mul_le_mul_of_nonneg_right he ?_) le_rfl)
    exact memberMean_nonneg N _ _ c j
  · rw [← hd r hr]; exact h9 ho hch r hr

/-- The initialisation on doubles. -/
theorem ompInit_near [DecidableLT R] [DecidableLE R] (hI : IeeeDouble fin val sqrt abs')
    (hbig : fin big ∧ val big = maxDouble) (cosd : Row R n → Row R n → R) {met : Dist.Metric} (hcos : met ≠ .cos)
    (rng : Rng R S k) (data data' : Nat → Row R n) (N T : Nat) (hdata : ∀ r, r < N → data r = data' r)
    (hk : 0 < k) (hn : 0 < N) (hlt : N < 4294967296) (hT : T ≤ 4294967296) (hcol : n ≤ 4294967296)
    (hrows : ∀ r, r < N → InBox fin val (2 ^ (400 : Int)) (data' r)) (hrng : RngFin fin val rng N)
    (ko : Nat → Nat → Nat) (hko : ∀ i r, r < N → ko i r < T) (ks : Nat → List Nat)
    (hks : ∀ i, Complete T (Omp.rows N T (ko i)) (ks i)) (it : InitT)
    (given : Option (Fin k → Row R n)) (gv : Fin k → Row R n) (hg : it = .none → given = some gv)
    (hgiven : ∀ g, given = some g → ∀ c, InBox fin val (2 ^ (400 : Int)) (g c)) :
    ∃ s, Omp.initState (anyDist sqrt abs' cosd met) big data N T ko ks (ompStart rng gv it) = .ok s ∧
      (∀ c, InBox fin val (2 ^ (402 : Int)) (s.cltrs.means c)) ∧
      NearStartsAt fin val it (metricDist met) ((n + 4 : Nat) * 2 ^ (-52 : Int)) (metricSlack met)
        ((N + 1 : Nat) * 2 ^ (-52 : Int)) (2 ^ (-1075 : Int)) ((N + T + N + 2 : Nat) * 2 ^ (-52 : Int))
        (2 ^ (-1073 : Int)) data' N rng given s.cltrs.means := by
  have hrows' : ∀ r, r < N → InBox fin val (2 ^ (400 : Int)) (data r) := fun r hr => by
    rw [hdata r hr]; exact hrows r hr
  have h42 : ∀ {x : Row R n}, InBox fin val (2 ^ (400 : Int)) x → InBox fin val (2 ^ (402 : Int)) x := fun h =>
    Kmeans.InBox.mono h (p_le (by norm_num))
  cases it with
  | none =>
    have h := hg rfl
    refine ⟨_, rfl, fun c => h42 (hgiven gv h c), fun g hg' => ?_, fun hg' => by rw [h] at hg'; cases hg'⟩
    rw [h] at hg'
    rw [← Option.some.inj hg']
    rfl
  | forgy =>
    obtain ⟨c', e, h⟩ := C27_forgy_picks_rows rng.row rng.seed data N 1 (by omega) hlt hrng.row Clusters.empty
    unfold Init.forgy at e
    rw [Omp.forgyLoop_eq rng.row (by omega) hlt hrng.row] at e
    obtain rfl := Except.ok.inj e
    refine ⟨_, rfl, fun c => ?_, fun c => ?_⟩
    · obtain ⟨r, hr, _, q2⟩ := h c
      show InBox fin val _ ((Omp.forgyLoop rng.row data (List.finRange k) rng.seed Clusters.empty).means c)
      rw [q2]
      exact h42 (hrows' r hr)
    · obtain ⟨r, hr, q1, q2⟩ := h c
      exact ⟨r, hr, q1, by rw [← hdata r hr]; exact q2⟩
  | random =>
    obtain ⟨c', a', e, q1, q2, q3⟩ := random_near (nt := 1) hI rng.clust rng.seed hn (by omega) hlt hrows' fun _ => none
    unfold Init.random at e
    rw [Omp.randomLoop_eq rng.clust (by omega) hlt (List.range N) (fun r hr => List.mem_range.1 hr)] at e
    dsimp only at e
    obtain ⟨rfl, rfl⟩ := Prod.mk.inj (Except.ok.inj e)
    refine ⟨_, rfl, q2, _, q1, fun c j => ⟨(q2 c j).1, ?_⟩⟩
    set a' := (Omp.randomLoop rng.clust data (List.range N) rng.seed (Clusters.empty : Clusters R k n) fun _ => none).2
    have hm : ∀ f : R → ℝ, memberMean N (fun r j => f (data r j)) a' c j =
        memberMean N (fun r j => f (data' r j)) a' c j := fun f =>
      memberMean_data (fun r hr => by rw [hdata r hr]) a' c j
    rw [← hm val, ← hm fun x => |val x|]
    exact q3 c j
  | plusplus =>
    have hf := hrng.row rng.seed
    obtain ⟨s', e, q1, q2⟩ := ompKpp_near hI (seed_double hI hbig hcol cosd hcos hrows') hk hn hlt hko (by omega) hks
      (u := fun i => (rng.unit (skip rng.unit i (rng.row rng.seed).2)).1) (fun i => hrng.unit _) hf
      ⟨Clusters.empty, fun _ => ⟨big, none⟩⟩ (fun _ _ => rfl)
    refine ⟨⟨s'.cltrs, fun r => (s'.slots r).assign, fun _ => 0, 0⟩, ?_, fun c => ?_, fun c => ?_⟩
    · unfold ompStart Omp.initState; dsimp only; rw [e]
    · obtain ⟨r, hr, w⟩ := q1 c
      show InBox fin val _ (s'.cltrs.means c)
      rw [w]
      exact h42 (hrows' r hr)
    · refine ⟨fun h => by rw [← hdata _ hf]; exact (q2 c).1 h, fun h => ?_⟩
      obtain ⟨r, d, w1, w2, w3⟩ := (q2 c).2 h
      refine ⟨r, d, _, ?_, ?_, outputs_get _ _ _ _ (by have := c.isLt; omega), w3⟩
      · rw [← hdata r w3.1]; exact w1
      · intro q hq
        have := w2 q hq
        dsimp only at this ⊢
        rw [hdata q hq] at this
        exact this

omit [Zero R] [Add R] [Sub R] [Mul R] [Div R] [IntCast R] [NatCast R] [LT R] [LE R] in
theorem omp_sizes {data : Nat → Row R n} {N T : Nat} (hn : 0 < N) (hlt : N < 4294967296) (hT : T ≤ 4294967296)
    (hrows : ∀ r, r < N → InBox fin val (2 ^ (400 : Int)) (data r)) :
    Omp.OmpSizes fin val (2 ^ (-53 : Int)) (2 ^ (-1075 : Int)) maxDouble (2 ^ (400 : Int)) (2 ^ (402 : Int)) (2 ^ 53) N T
      data where
  n_pos := hn
  n_le := hlt.le.trans (by norm_num)
  rows := hrows
  x_le := p_le (by norm_num)
  mean_le := by
    have h1 := mul_le_mul_of_nonneg_right (pow2 (m := N + T + 1) (by omega)) (p_pos 400).le
    have h2 : (2 : ℝ) ^ (-1075 : Int) ≤ 2 ^ (401 : Int) := p_le (by norm_num)
    refine (add_le_add h1 h2).trans (le_of_eq ?_)
    rw [p_mul, show (1 : Int) + 400 = 401 by norm_num, show (402 : Int) = 1 + 401 by norm_num,
      zpow_add₀ (by norm_num) 1 401, zpow_one]
    ring
  sum_le := by
    have h1 := mul_le_mul_of_nonneg_right (nat_p hlt.le) (p_pos 400).le
    have h2 := mul_le_mul (pow2 (m := N + T) (by omega)) h1 (by positivity) (p_pos _).le
    refine h2.trans (le_trans (le_of_eq ?_) ((p_le (show (433 : Int) ≤ 1023 by norm_num)).trans p_le_max))
    rw [p_mul, p_mul]; norm_num

/-- **C111, what holds of the call.**  On IEEE doubles, for every initialisation, every distribution of the rows over the
threads, all interleavings and all draws of the engine, a call with the Euclidean metric on rows and given centres no
larger than `2^400` never fails, and it returns `maxIters - 1` iterations of Lloyd's algorithm up to rounding, or fewer if
it stops before, from the start that the initialisation promises up to rounding.
The full statement has `maxIters` iterations (C92); and it has the last clause for every distribution of the rows. -/
theorem C111_call_partial [DecidableLT R] [DecidableLE R] (hI : IeeeDouble fin val sqrt abs')
    (hbig : fin big ∧ val big = maxDouble) (cosd : Row R n → Row R n → R)
    (rng : Rng R S k) (o : OmpRun) (a : OmpCall R) (m : Nat → Nat → R)
    (given : Option (Nat → Nat → R)) (hk : 2 ≤ k) (hkN : k ≤ a.nrow) (hcol : n ≤ 4294967296)
    (hlt : a.nrow < 4294967296) (hnt : a.nthreads ≤ 2147483647)
    (hdata : a.data = rowsFrom m n 0 a.nrow) (hgiven : a.centers = given.map fun g => rowsFrom g n 0 k)
    (hnone : a.init = "none" → given.isSome) (hrng : RngFin fin val rng a.nrow) (ho : o.Ok a.nrow a.nthreads)
    (hm : ∀ r j, r < a.nrow → j < n → fin (m r j) ∧ |val (m r j)| ≤ 2 ^ (400 : Int))
    (hg : ∀ g, given = some g → ∀ r j, r < k → j < n → fin (g r j) ∧ |val (g r j)| ≤ 2 ^ (400 : Int))
    (it : InitT) (hi : getInit a.init = .ok it) (hd : a.dist = "eucl") :
    ∃ res, kmeansOmp (anyDist sqrt abs' cosd) big rng o a = .ok res ∧
      NearDeliversOmp fin val it .eucl (matRows m) a.nrow (ompThreads a.nthreads o.avail) rng (givenCents given) a.tol
        (a.maxIters - 1) (∀ i r, r < a.nrow → o.owner i r = o.owner 0 r) (Omp.report res) ∧
      (a.maxIters ≤ 1 → res.iters = a.maxIters) := by
  have hn : 0 < a.nrow := by omega
  have hT : ompThreads a.nthreads o.avail ≤ 4294967296 := by unfold ompThreads; split <;> omega
  have hnone' : it = .none → given.isSome := by
    rintro rfl
    have := (getInit_ok a.init .none).1 hi
    simp at this
    exact hnone this
  obtain ⟨gv, ec, hgv⟩ := ompChecks_ok (n := n) a given hgiven hk hkN it .eucl hi ((ompMetric_ok _ _).2 (.inl ⟨hd, rfl⟩))
    hnone'
  have hrows : ∀ r, r < a.nrow → flatRow (n := n) a.data r = matRows m r := fun r hr => by
    rw [hdata]; exact flatRow_rowsFrom m hr
  have hbox : ∀ r, r < a.nrow → InBox (n := n) fin val (2 ^ (400 : Int)) (matRows m r) := fun r hr j =>
    hm r j.val hr j.isLt
  have hgbox : ∀ g, givenCents (k := k) (n := n) given = some g → ∀ c, InBox fin val (2 ^ (400 : Int)) (g c) := by
    intro g h c j
    cases given with
    | none => cases h
    | some g' =>
      rw [← Option.some.inj h]
      exact hg g' rfl c.val j.val c.isLt j.isLt
  obtain ⟨s, es, hb, hst⟩ := ompInit_near hI hbig cosd (met := .eucl) (by decide) rng (flatRow a.data) (matRows m) a.nrow
    (ompThreads a.nthreads o.avail) hrows (by omega) hn hlt hT hcol hbox hrng o.kppOwner ho.kppOwner o.kppSched ho.kppSched it
    (givenCents given) gv hgv hgbox
  have ecall : kmeansOmp (k := k) (n := n) (anyDist sqrt abs' cosd) big rng o a =
      Omp.run (anyDist sqrt abs' cosd .eucl) big (flatRow a.data) a.nrow
      (ompThreads a.nthreads o.avail) o.owner a.tol a.maxIters o.sched s := by
    unfold kmeansOmp Omp.compute
    rw [ec]
    dsimp only
    rw [if_neg (by omega), es]
  rw [ecall]
  by_cases hM : a.maxIters ≤ 1
  · refine ⟨⟨a.maxIters, { s with changed := 0 }⟩, ?_, ⟨s.cltrs.means, hst, fun _ => rfl, fun h => by omega⟩, fun _ => rfl⟩
    unfold Omp.run
    rcases Nat.lt_or_ge 0 a.maxIters with h | h
    · have h1 : a.maxIters = 1 := by omega
      rw [h1, if_pos (by omega)]
      unfold Omp.loop
      rw [if_neg (by omega)]
    · have h1 : a.maxIters = 0 := by omega
      rw [h1, if_neg (by omega)]
      unfold Omp.loop
      rfl
  · obtain ⟨M, hMe⟩ : ∃ M, a.maxIters = M + 1 := ⟨a.maxIters - 1, by omega⟩
    obtain ⟨res, er, h⟩ := Omp.run_near hI.rounds (by omega) (dist_double hI hbig hcol cosd (met := .eucl) (by decide)).1
      (omp_sizes (data := flatRow a.data) hn hlt hT fun r hr => by rw [hrows r hr]; exact hbox r hr) ho.owner hb (budget := M) (by omega) ho.sched
      (tol := a.tol)
    rw [hMe]
    refine ⟨res, er, ⟨s.cltrs.means, hst, fun h => by omega, fun _ => ?_⟩, fun h => by omega⟩
    exact nearOrder_mono (metricDist_nonneg .eucl) (pow_rounds (m := _) (by omega)).1 hrows h

omit [Zero R] [Add R] [Sub R] [Mul R] [IntCast R] [LT R] in
/-- Lloyd's algorithm up to rounding returns the clusters of the exact algorithm if the iterations are separated. -/
theorem nearOrder_separated {dist : (Fin n → ℝ) → (Fin n → ℝ) → ℝ} {γ ζ e η Λ X : ℝ} {N : Nat}
    {data : Nat → Fin n → R} {cents0 : Fin k → Fin n → R} {tol : R} {maxIters iters : Nat} {order : Prop}
    {assign : Nat → Option (Fin k)} {counts : Fin k → Int} {cents : Fin k → Fin n → R}
    (hγ : γ ≤ 1) (hγ0 : 0 ≤ γ) (he : 0 ≤ e) (hη : 0 ≤ η) (hX0 : 0 ≤ X)
    (hX : ∀ r, r < N → ∀ j, |val (data r j)| ≤ X)
    (hΛ : ∀ x y y' : Fin n → ℝ, (∀ j, |y' j - y j| ≤ e * X + η) → |dist x y' - dist x y| ≤ Λ)
    (h : NearLloydOrder fin val dist γ ζ e η N data cents0 tol maxIters order iters assign counts cents)
    (tr : Nat → Snap ℝ k n)
    (hl : LloydTrace dist N (fun r j => val (data r j)) (fun c j => val (cents0 c j)) tr)
    (hs : ∀ i, i < maxIters → Separated dist γ ζ Λ N (fun r j => val (data r j)) (tr i) (tr (i + 1))) :
    SameClusters val (e * X + η) N tol maxIters tr iters assign counts cents := by
  obtain ⟨m, tr', h1, h2, h3, h4, h5, h6, h7, h8, _⟩ := h
  have hf := near_follows hγ hγ0 he hη hX0 hX (fun i _ r _ c h => hΛ _ _ _ h) h3 hl fun i hi => hs i (by omega)
  have hch : ∀ i, i ≤ m → numChanged N (tr' (i - 1)).assign (tr' i).assign =
      numChanged N (tr (i - 1)).assign (tr i).assign := fun i hi =>
    NearLloyd.numChanged_congr (hf (i - 1) (by omega)).1 (hf i hi).1
  refine ⟨m, h1, h2, ?_, ?_, ?_, ?_, ?_⟩
  · intro i hi hi'
    have := h4 i hi hi'
    dsimp only at this ⊢
    rw [hch i (by omega)] at this
    exact this
  · dsimp only at h5 ⊢
    rw [hch m le_rfl] at h5
    exact h5
  · intro r hr
    rw [h6 r hr, (hf m le_rfl).1 r hr]
  · intro c
    rw [h7 c]
    unfold Spec.count
    congr 2
    apply Finset.filter_congr
    intro r hr
    rw [h6 r (Finset.mem_range.1 hr), (hf m le_rfl).1 r (Finset.mem_range.1 hr)]
  · intro c j
    rw [(h8 c j).2]
    exact (hf m le_rfl).2 c j

omit [Add R] [Sub R] [Mul R] [IntCast R] [LT R] in
/-- **C111, separated data.**  If the exact iterations from that start are separated by more than the errors, the
call returns exactly the clusters of Lloyd's algorithm, however the rows are distributed in each iteration. -/
theorem C111_separated {it : InitT} {data : Nat → Fin n → R} {N T : Nat} {rng : Rng R S k}
    {given : Option (Fin k → Fin n → R)} {tol : R} {maxIters : Nat} {order : Prop} {rep : Omp.Report R k n}
    (hcol : n ≤ 4294967296) (hT : T ≤ 4294967296) (hlt : N < 4294967296)
    (h : NearDeliversOmp fin val it .eucl data N T rng given tol maxIters order rep) (hm : 0 < maxIters)
    (X : ℝ) (hX0 : 0 ≤ X) (hX : ∀ r, r < N → ∀ j, |val (data r j)| ≤ X)
    (δ : ℝ) (hδ : δ = (N + T + 1 : Nat) * 2 ^ (-52 : Int) * X + 2 ^ (-1075 : Int)) :
    ∃ c0, NearStartsAt fin val it (metricDist .eucl) ((n + 4 : Nat) * 2 ^ (-52 : Int)) (metricSlack .eucl)
        ((N + 1 : Nat) * 2 ^ (-52 : Int)) (2 ^ (-1075 : Int)) ((N + T + N + 2 : Nat) * 2 ^ (-52 : Int))
        (2 ^ (-1073 : Int)) data N rng given c0 ∧
      ∀ tr, LloydTrace (metricDist .eucl) N (fun r j => val (data r j)) (fun c j => val (c0 c j)) tr →
        (∀ i, i < maxIters → Separated (metricDist .eucl) ((n + 4 : Nat) * 2 ^ (-52 : Int)) (metricSlack .eucl)
          (√n * δ) N (fun r j => val (data r j)) (tr i) (tr (i + 1))) →
        SameClusters val δ N tol maxIters tr rep.iters rep.assign rep.counts rep.means := by
  obtain ⟨c0, h1, _, h3⟩ := h
  refine ⟨c0, h1, fun tr hl hs => ?_⟩
  rw [hδ]
  refine nearOrder_separated (gamma_le (by omega)).1 (gamma_le (by omega)).2 (gamma_le (by omega)).2 (p_pos _).le
    hX0 hX ?_ (h3 hm) tr hl hs
  intro x y y' hy
  rw [← hδ] at hy
  exact eucl_lip hy

/-- **C111, the program.**  What `knori -O -P` does on doubles: `none` without a file of centres is refused, and a data
file whose size does not fit; otherwise a file of centres replaces the initialisation, and the program returns what
the call owes. -/
theorem C111_knori_partial [DecidableLT R] [DecidableLE R] (hI : IeeeDouble fin val sqrt abs')
    (hbig : fin big ∧ val big = maxDouble) (cosd : Row R n → Row R n → R) {c : Codec R B} (hc : CodecOk c)
    (rng : Rng R S k) (o : OmpRun) (datafn : List B) (centersfn : Option (List B))
    (nrow maxIters nthreads : Nat) (init : String) (tol : R) (distType : String)
    (hk : 2 ≤ k) (hkN : k ≤ nrow) (hcol : 0 < n) (hcol' : n ≤ 4294967296) (hlt : nrow < 4294967296)
    (hnt : nthreads ≤ 2147483647)
    (hsz : nrow * n * c.size < 9223372036854775808) (hszk : k * n * c.size < 18446744073709551616)
    (hrng : RngFin fin val rng nrow) (ho : o.Ok nrow nthreads) :
    (centersfn = none → init = "none" →
      knoriOmp (anyDist sqrt abs' cosd) big c rng o true datafn centersfn nrow maxIters nthreads init tol distType
        = .error .assertFail) ∧
    (¬ (centersfn = none ∧ init = "none") → datafn.length ≠ nrow * n * c.size →
      knoriOmp (anyDist sqrt abs' cosd) big c rng o true datafn centersfn nrow maxIters nthreads init tol distType
        = .error .throws) ∧
    ∀ (m : Nat → Nat → R) (given : Option (Nat → Nat → R)) it,
      Stores c datafn m nrow n → centersfn = given.map (fun g => (rowsFrom g n 0 k).flatMap c.enc) →
      (∀ r j, r < nrow → j < n → fin (m r j) ∧ |val (m r j)| ≤ 2 ^ (400 : Int)) →
      (∀ g, given = some g → ∀ r j, r < k → j < n → fin (g r j) ∧ |val (g r j)| ≤ 2 ^ (400 : Int)) →
      (given.isSome → it = .none) → (given = none → getInit init = .ok it ∧ it ≠ .none) → distType = "eucl" →
      ∃ rep : Omp.Report R k n,
        knoriOmp (anyDist sqrt abs' cosd) big c rng o true datafn centersfn nrow maxIters nthreads init tol distType
          = .ok rep ∧
        NearDeliversOmp fin val it .eucl (matRows m) nrow (ompThreads nthreads o.avail) rng (givenCents given) tol
          (maxIters - 1) (∀ i r, r < nrow → o.owner i r = o.owner 0 r) rep ∧
        (maxIters ≤ 1 → rep.iters = maxIters) := by
  have hn : 0 < nrow := by omega
  have hu : u64 (u64 (c.size * nrow) * n) = nrow * n * c.size := by
    have h0 : c.size * nrow * n = nrow * n * c.size := by ring
    rw [u64_mul (by omega), h0]
  refine ⟨?_, ?_, ?_⟩
  · rintro rfl rfl
    unfold knoriOmp
    simp
  · intro h hne
    unfold knoriOmp
    dsimp only
    rw [if_neg, if_pos (by rw [hu]; exact hne)]
    rintro ⟨h2, h3⟩
    have h4 : centersfn = none := by simpa using h3
    subst h4
    exact h ⟨rfl, by simpa using h2⟩
  · intro m given it hst hcf hm hg hs hnone hd
    subst hd
    have hlen : datafn.length = nrow * n * c.size := by
      unfold Stores at hst
      rw [hst, length_enc hc, length_rowsFrom]
    have hgs : (if given.isSome then "none" else init) = "none" → given.isSome := by
      cases given with
      | none =>
        obtain ⟨hi, hit⟩ := hnone rfl
        rintro rfl
        exact absurd (Except.ok.inj hi).symm hit
      | some g => intro _; rfl
    have hi : getInit (if given.isSome then "none" else init) = .ok it := by
      cases given with
      | none => exact (hnone rfl).1
      | some g => rw [hs rfl]; rfl
    obtain ⟨res, e, w1, w2⟩ := C111_call_partial hI hbig cosd rng o ⟨rowsFrom m n 0 nrow, nrow, maxIters, nthreads,
      given.map fun g => rowsFrom g n 0 k, if given.isSome then "none" else init, tol, "eucl"⟩ m given hk hkN hcol' hlt hnt rfl
      rfl hgs hrng ho hm hg it hi rfl
    refine ⟨Omp.report res, ?_, w1, w2⟩
    obtain ⟨y, ey⟩ := read_stored (n := n) hc m nrow (Nat.mul_pos hn hcol) (by omega) hst
    unfold knoriOmp
    dsimp only
    cases given with
    | none =>
      rw [Option.map_none] at hcf
      subst hcf
      have hne : init ≠ "none" := fun h => by cases hgs h
      rw [if_neg (by simp [hne]), if_neg (by rw [hu]; simp [hlen])]
      dsimp only
      rw [ey]
      exact congrArg (Except.map Omp.report) e
    | some g =>
      rw [Option.map_some] at hcf
      subst hcf
      rw [if_neg (by simp), if_neg (by rw [hu]; simp [hlen])]
      obtain ⟨z, ez⟩ := read_stored (n := n) hc g k (Nat.mul_pos (by omega) hcol) hszk rfl
      dsimp only
      rw [ez]
      dsimp only
      rw [ey]
      exact congrArg (Except.map Omp.report) e

/-! ### Calls that meet the hypotheses -/

/-- Every initialisation on the rows 0, 1, 2, 3; eight threads are asked for, two exist. -/
example (init : String) (maxIters : Nat) (it : InitT) (hi : getInit init = .ok it) (hit : init ≠ "none") :
    ∃ res, kmeansOmp (n := 1) (anyDist (fun x => Dbl.rnd (√x.v)) (fun x => ⟨|x.v|⟩) fun _ _ => 0) ⟨maxDouble⟩ dblRng demoOmp
        ⟨rowsFrom (fun r _ => ⟨(r : ℝ)⟩) 1 0 4, 4, maxIters, 8, none, init, ⟨0⟩, "eucl"⟩ = .ok res ∧
      NearDeliversOmp Dbl.Fin' Dbl.v it .eucl (matRows fun r _ => ⟨(r : ℝ)⟩) 4 2 dblRng none ⟨0⟩ (maxIters - 1)
        (∀ i r, r < 4 → demoOmp.owner i r = demoOmp.owner 0 r) (Omp.report res) := by
  obtain ⟨res, e, h, -⟩ := C111_call_partial (n := 1) Dbl.ieee dbl_input.big (fun _ _ => 0) dblRng demoOmp
    ⟨rowsFrom (fun r _ => ⟨(r : ℝ)⟩) 1 0 4, 4, maxIters, 8, none, init, ⟨0⟩, "eucl"⟩ (fun r _ => ⟨(r : ℝ)⟩) none
    (by decide) (by simp) (by decide) (by simp) (by simp) rfl rfl (fun h => absurd h hit) dblRng_fin demoOmp_ok
    (fun r j hr _ => dbl_small r (by have : r < 4 := hr; omega)) (fun g h => by cases h) it hi rfl
  exact ⟨res, e, h⟩

/-- The program on the rows 0, 1, 10, 11 with a file of centres 0 and 10, and the exact clusters that it returns. -/
example (tol : Dbl) : ∃ rep,
    knoriOmp (anyDist (fun x => Dbl.rnd (√x.v)) (fun x => ⟨|x.v|⟩) fun _ _ => 0) ⟨maxDouble⟩ (oneCell Dbl) dblRng demoOmp true
      ((rowsFrom (fun r _ => (⟨(sepRow r : ℝ)⟩ : Dbl)) 1 0 4).flatMap (oneCell Dbl).enc)
      (some ((rowsFrom (fun r _ => (⟨((if r = 0 then 0 else 10 : Nat) : ℝ)⟩ : Dbl)) 1 0 2).flatMap (oneCell Dbl).enc))
      4 6 8 "kmeanspp" tol "eucl" = .ok rep ∧
    SameClusters Dbl.v ((7 : Nat) * 2 ^ (-52 : Int) * 11 + 2 ^ (-1075 : Int)) 4 tol 5 sepTrace rep.iters
      rep.assign rep.counts rep.means := by
  have h4 : ∀ r, r < 4 → sepRow r ≤ 11 := by
    intro r hr
    have : r = 0 ∨ r = 1 ∨ r = 2 ∨ r = 3 := by omega
    rcases this with rfl | rfl | rfl | rfl <;> decide
  obtain ⟨rep, er, h, -⟩ := (C111_knori_partial (k := 2) (n := 1) Dbl.ieee dbl_input.big (fun _ _ => 0) (oneCell_ok Dbl)
    dblRng demoOmp ((rowsFrom (fun r _ => (⟨(sepRow r : ℝ)⟩ : Dbl)) 1 0 4).flatMap (oneCell Dbl).enc)
      (some ((rowsFrom (fun r _ => (⟨((if r = 0 then 0 else 10 : Nat) : ℝ)⟩ : Dbl)) 1 0 2).flatMap (oneCell Dbl).enc))
      4 6 8 "kmeanspp" tol "eucl"
    (by decide) (by decide) (by decide) (by decide) (by decide) (by decide) (by decide) (by decide) dblRng_fin
    demoOmp_ok).2.2 _ (some fun r _ => ⟨((if r = 0 then 0 else 10 : Nat) : ℝ)⟩) .none rfl rfl
    (fun r j hr _ => dbl_small (sepRow r) (by have := h4 r hr; omega))
    (fun g h r j _ _ => by
      rw [← Option.some.inj h]
      exact dbl_small _ (by split_ifs <;> norm_num)) (fun _ => rfl) (fun h => by cases h) rfl
  refine ⟨rep, er, ?_⟩
  have hT : ompThreads 8 demoOmp.avail = 2 := rfl
  rw [hT] at h
  obtain ⟨c0, h1, h2⟩ := C111_separated (by norm_num) (by norm_num) (by norm_num) h
    (by norm_num) 11 (by norm_num) (fun r hr j => by
      have : ((sepRow r : Nat) : ℝ) ≤ ((11 : Nat) : ℝ) := by exact_mod_cast h4 r hr
      simpa [matRows] using this) _ rfl
  have e0 := h1.1 _ rfl
  subst e0
  refine h2 sepTrace ?_ fun i _ => ?_
  · have e1 : (fun (c : Fin 2) (_ : Fin 1) => (sepInit.cltrs.means c 0).v) =
        fun c _ => ((if c.val = 0 then 0 else 10 : Nat) : ℝ) := by
      funext c _
      fin_cases c <;> rfl
    have := sep_lloyd
    refine ⟨this.cents.trans e1, this.unassigned, this.step⟩
  · exact sep_separated_of 7 (by decide) i

end Knor.Driver
