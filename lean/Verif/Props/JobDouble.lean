import Verif.Lemmas.JobSeed
import Verif.Spec.NearJobStart
import Verif.Props.DoubleDriver
import Verif.Props.DistrDriver
import Verif.Props.DistrNear

/-!
# Property C112: a whole distributed job on doubles

C85 is about exact arithmetic and C101 about a run on doubles from given centroids.  Here is the whole job, from the
names of the options and the file to what is returned, on IEEE doubles, for every initialisation and with every
reduction in an order of the MPI library's choice.
-/

namespace Knor.Driver

open Knor Knor.Par Knor.Partition Knor.Spec Knor.NearLloyd Knor.Kmeans Knor.Distr Knor.Init Knor.Io

variable {R S B : Type _} {k n : Nat} [Zero R] [Add R] [Sub R] [Mul R] [Div R] [IntCast R] [NatCast R] [LT R] [LE R]
  {fin : R → Prop} {val : R → ℝ} {sqrt abs' : R → R} {big : R}

/-- Every reduction adds the numbers of all `np` ranks, each once. -/
structure Orders.Ok (np : Nat) (o : Orders k n) : Prop where
  init : ∀ i c j, (o.init i c j).ranks.Perm (List.range np)
  total : ∀ i, (o.total i).ranks.Perm (List.range np)
  run : OrderOk np o.run

/-! ### Reductions in rank order -/

omit [Mul R] [NatCast R] [LT R] [LE R] [Sub R] [Div R] [IntCast R] in
theorem reduceMeansBy_rank_order (np : Nat) (s : Nat → Kpp R R k n) :
    reduceMeansBy (fun _ _ x => allreduce np x) s = reduceMeans np s := rfl

omit [IntCast R] in
theorem kppLoopDistBy_rank_order [DecidableLT R] [DecidableLE R] (zeroIt : Bool) (dist : Row R n → Row R n → R)
    (data : Nat → Row R n) (g np nt : Nat) (T : Nat → Nat) (todo : Nat → Nat → List Nat) (sched : Nat → Nat → List Nat)
    (u : Nat → R) (rest : List (Fin k)) : ∀ ci s,
    kppLoopDistBy (fun _ _ _ x => allreduce np x) (fun _ x => allreduce np x) zeroIt dist data g np nt T todo sched u
      rest ci s = kppLoopDist zeroIt dist data g np nt T todo sched u rest ci s := by
  have hp : ∀ (ci : Fin k) s, kppPassDistBy (fun x => allreduce np x) dist data g np T todo (sched ci) ci s =
      kppPassDist dist data g np T todo (sched ci) ci s := by
    intro ci s
    unfold kppPassDistBy kppPassDist
    cases eachRank (fun p => kppPass dist (procData data g np p) (T p) (todo p) (sched ci p) ci (s p)) np
      (fun p => (s p, 0)) <;> rfl
  induction rest with
  | nil =>
    intro ci s
    unfold kppLoopDistBy kppLoopDist
    rw [hp]
    cases kppPassDist dist data g np T todo (sched ci) ci s <;> rfl
  | cons c rest ih =>
    intro ci s
    unfold kppLoopDistBy kppLoopDist
    rw [hp]
    cases kppPassDist dist data g np T todo (sched ci) ci s with
    | error e => rfl
    | ok p =>
      dsimp only
      cases (select (gatherDist g np fun q l => ((p.1 q).slots l).dist) (List.range g) (threshold p.2 (u ci))).1 with
      | none =>
        dsimp only
        split
        · exact ih _ _
        · rfl
      | some r =>
        dsimp only
        cases eachRank (fun q => chooseDist zeroIt data g np q nt r c (p.1 q)) np p.1 with
        | error e => rfl
        | ok s'' =>
          dsimp only
          split
          · exact ih _ _
          · rfl

/-- **C112, rank order.**  With every reduction made in rank order the job is the job of C85. -/
theorem C112_rank_order [DecidableLT R] [DecidableLE R] (dist : Dist.Metric → Row R n → Row R n → R) (big : R)
    (c : Codec R B) (rng : Rng R S k) (sched1 sched2 : Nat → Nat → List Nat) (a : Job R B) :
    kmeansDistBy (fun _ _ _ x => allreduce a.nprocs x) (fun _ x => allreduce a.nprocs x)
      (fun _ _ _ x => allreduce a.nprocs x) dist big c rng sched1 sched2 a =
    kmeansDist dist big c rng sched1 sched2 a := by
  have hinit : ∀ m (data : Nat → Row R n) it c0, runInitDistBy (fun _ _ _ x => allreduce a.nprocs x)
      (fun _ x => allreduce a.nprocs x) (dist m) big rng data a.nrow a.nprocs a.nthreads sched1 it c0 =
      runInitDist (dist m) big rng data a.nrow a.nprocs a.nthreads sched1 it c0 := by
    intro m data it c0
    unfold runInitDistBy runInitDist
    cases it with
    | none => rfl
    | random =>
      dsimp only
      unfold randomDistBy randomDist
      cases eachRank (fun p => randomLoop (emuNext rng.clust) (procData data a.nrow a.nprocs p)
        (procNrow a.nrow a.nprocs p) a.nthreads (List.range (procNrow a.nrow a.nprocs p))
        (emuCreate rng.clust rng.seed (a.nrow / a.nprocs * p)) c0 fun _ => none) a.nprocs
        (fun _ => (c0, fun _ => none)) <;> rfl
    | forgy =>
      dsimp only
      unfold forgyDistBy forgyDist
      cases eachRank (fun p => forgyLoopDist rng.row data a.nrow a.nprocs p a.nthreads (List.finRange k) rng.seed c0)
        a.nprocs (fun _ => c0) <;> rfl
    | plusplus =>
      dsimp only
      unfold kppDistBy kppDist
      cases List.finRange k with
      | nil => rfl
      | cons c1 rest =>
        dsimp only
        simp only [kppLoopDistBy_rank_order]
        cases eachRank (fun p => firstDist data a.nrow a.nprocs p a.nthreads (rng.row rng.seed).1 c1
          (⟨c0, fun _ => ⟨big, none⟩⟩ : Kpp R R k n)) a.nprocs (fun _ => ⟨c0, fun _ => ⟨big, none⟩⟩) <;> rfl
  unfold kmeansDistBy kmeansDist
  simp only [hinit]
  rfl

/-! ### The initialisation -/

/-- Distances on doubles between rows and copies of rows. -/
theorem copies_double (hI : IeeeDouble fin val sqrt abs') (hbig : fin big ∧ val big = maxDouble) (hn : n ≤ 4294967296)
    (cosd : Row R n → Row R n → R) {met : Dist.Metric} (hcos : met ≠ .cos) {data : Nat → Row R n} {N : Nat}
    (hrows : ∀ r, r < N → InBox fin val (2 ^ (400 : Int)) (data r)) :
    SeedCopies fin val (anyDist sqrt abs' cosd met) big data N (metricDist met) ((n + 4 : Nat) * 2 ^ (-52 : Int))
      (metricSlack met) := by
  obtain ⟨hD, hX⟩ := dist_double hI hbig hn cosd hcos
  have h42 : ∀ {x : Row R n}, InBox fin val (2 ^ (400 : Int)) x → InBox fin val (2 ^ (402 : Int)) x := fun h =>
    Kmeans.InBox.mono h (p_le (by norm_num))
  refine ⟨fun r hr j => (hrows r hr j).1, hbig.1, fun q r y hq hr hy => ?_⟩
  have hyb : InBox fin val (2 ^ (402 : Int)) y := h42 fun j => ⟨(hy j).1, by rw [(hy j).2]; exact (hrows r hr j).2⟩
  obtain ⟨a1, a2, a3⟩ := hD.near _ _ (h42 (hrows q hq)) hyb
  obtain ⟨b1, b2, b3⟩ := hX _ _ (h42 (hrows q hq)) hyb
  exact ⟨a1, b1, b2, a2, b3, a3⟩

theorem addsOfJob_width {g np nt : Nat} (p : Nat) :
    procNrow g np p / effThreads nt (procNrow g np p) + procNrow g np p % effThreads nt (procNrow g np p) +
      effThreads nt (procNrow g np p) ≤ addsOfJob g np nt := by
  show addsOf nt (procNrow g np p) ≤ _
  unfold procNrow addsOfJob
  split
  · exact le_max_right _ _
  · exact le_max_left _ _

theorem addsOfJob_le {g np nt : Nat} (hnp : 0 < np) (hg : np ≤ g) (hnt : 0 < nt) : addsOfJob g np nt ≤ g + 1 := by
  have h : ∀ p, p < np → addsOf nt (procNrow g np p) ≤ g + 1 := fun p hp => width_le hnp hg hnt p hp
  have hlast := h (np - 1) (by omega)
  unfold procNrow at hlast
  rw [if_pos rfl] at hlast
  unfold addsOfJob
  refine max_le ?_ hlast
  by_cases h1 : np = 1
  · subst h1
    simpa [Nat.mod_one] using hlast
  · have h0 := h 0 hnp
    unfold procNrow at h0
    rw [if_neg (by omega)] at h0
    exact h0

/-- The initialisation of a job on doubles. -/
theorem runInitDistBy_near [DecidableLT R] [DecidableLE R] (hI : IeeeDouble fin val sqrt abs')
    (hbig : fin big ∧ val big = maxDouble) (cosd : Row R n → Row R n → R) {met : Dist.Metric} (hcos : met ≠ .cos)
    (rng : Rng R S k) (data data' : Nat → Row R n) (g np nt : Nat) (hdata : ∀ r, r < g → data r = data' r)
    (hk : 0 < k) (hnp : 0 < np) (hg : np ≤ g) (hnt : 0 < nt) (hlt : g < 4294967296) (hcol : n ≤ 4294967296)
    (hrows : ∀ r, r < g → InBox fin val (2 ^ (400 : Int)) (data' r)) (hrng : RngFin fin val rng g)
    {o : Orders k n} (ho : o.Ok np) (sched : Nat → Nat → List Nat) (hc : SchedOk g np nt sched)
    (it : InitT) (given : Option (Nat → Nat → R))
    (hgiven : ∀ g, givenCents (k := k) (n := n) given = some g → ∀ c, InBox fin val (2 ^ (400 : Int)) (g c)) :
    ∃ cl procs cm c0, construct it (given.map fun g => rowsFrom g n 0 k) = .ok cl ∧
      runInitDistBy (fun i c j x => (o.init i c j).eval x) (fun i x => (o.total i).eval x)
        (anyDist sqrt abs' cosd met) big rng data g np nt sched it cl = .ok procs ∧
      (∀ p, p < np → (procs p).cltrs.means = cm) ∧ (∀ c, InBox fin val (2 ^ (402 : Int)) (cm c)) ∧
      (∀ c j, val (cm c j) = val (c0 c j)) ∧
      NearStartsAt fin val it (metricDist met) ((n + 4 : Nat) * 2 ^ (-52 : Int)) (metricSlack met)
        ((g / np + g % np + np : Nat) * 2 ^ (-52 : Int)) (2 ^ (-1075 : Int))
        ((addsOfJob g np nt + np + g + 1 : Nat) * 2 ^ (-52 : Int))
        (2 ^ (-1073 : Int)) data' g rng (givenCents given) c0 := by
  have hrows' : ∀ r, r < g → InBox fin val (2 ^ (400 : Int)) (data r) := fun r hr => by
    rw [hdata r hr]; exact hrows r hr
  have h42 : ∀ {x : Row R n}, InBox fin val (2 ^ (400 : Int)) x → InBox fin val (2 ^ (402 : Int)) x := fun h =>
    Kmeans.InBox.mono h (p_le (by norm_num))
  have hcopy : ∀ {y : Row R n} {r}, r < g → Copy fin val y (data r) → InBox fin val (2 ^ (402 : Int)) y :=
    fun {y r} hr hy => h42 fun j => ⟨(hy j).1, by rw [(hy j).2]; exact (hrows' r hr j).2⟩
  obtain ⟨cl, e0, h0, h1⟩ := construct_ok (k := k) (n := n) hk it given
  refine ⟨cl, ?_⟩
  cases it with
  | none =>
    obtain ⟨w1, w2⟩ := h1 rfl
    refine ⟨_, cl.means, cl.means, e0, rfl, fun _ _ => rfl, ?_, fun _ _ => rfl, fun g hg => ?_,
      fun hg => w2 (by unfold givenCents at hg; simpa using hg)⟩
    · intro c
      cases given with
      | none =>
        intro j
        rw [w2 rfl c j, hI.zero.2, abs_zero]
        exact ⟨hI.zero.1, (p_pos _).le⟩
      | some g' =>
        rw [w1 g' rfl]
        exact h42 (hgiven _ rfl c)
    · cases given with
      | none => cases hg
      | some g' =>
        rw [← Option.some.inj hg]
        exact w1 g' rfl
  | forgy =>
    obtain rfl := h0 (by decide)
    obtain ⟨cs, cm, e, q1, q2⟩ := forgyDistBy_near (k := k) hI rng.row rng.seed hnp hnt hlt hrng.row
      (fun r hr j => (hrows' r hr j).1) (ho.init 0)
    choose rw_ hr_ ho_ hv_ using q2
    refine ⟨fun p => ⟨cs p, fun _ => none, (cs p).num, 0⟩, cm, fun c => data (rw_ c), e0, ?_, fun p hp => q1 p hp,
      fun c => hcopy (hr_ c) (hv_ c), fun c j => (hv_ c j).2, fun c => ⟨rw_ c, hr_ c, ho_ c, hdata _ (hr_ c)⟩⟩
    unfold runInitDistBy; dsimp only; rw [e]
  | random =>
    obtain rfl := h0 (by decide)
    obtain ⟨st, cm, A, e, q1, q2, q3, q4⟩ := randomDistBy_near hI rng.clust rng.seed hnp hg hnt hlt hrows' (ho.init 0)
    refine ⟨fun p => ⟨(st p).1, (st p).2, (st p).1.num, 0⟩, cm, cm, e0, ?_, fun p hp => q1 p hp, q3, fun _ _ => rfl, A,
      q2, fun c j => ⟨(q3 c j).1, ?_⟩⟩
    · unfold runInitDistBy; dsimp only; rw [e]
    · have hm : ∀ f : R → ℝ, memberMean g (fun r j => f (data r j)) A c j =
          memberMean g (fun r j => f (data' r j)) A c j := fun f =>
        memberMean_data (fun r hr => by rw [hdata r hr]) A c j
      rw [← hm val, ← hm fun x => |val x|]
      exact q4 c j
  | plusplus =>
    obtain rfl := h0 (by decide)
    have hf := hrng.row rng.seed
    have hsp : ∀ p, p < np → Split (procNrow g np p) (effThreads nt (procNrow g np p))
        (Kmeans.threadRows (procNrow g np p) nt) := fun p hp => by
      have := Distr.procNrow_le (g := g) hp
      exact Kmeans.split_threadRows (Distr.procNrow_pos hnp hg) hnt (by omega)
    have hWl := addsOfJob_le hnp hg hnt
    obtain ⟨ps, cm, e, q1, q2, _, q3⟩ := kppDistBy_near (zeroIt := false) hI
      (copies_double hI hbig hcol cosd hcos hrows') hk hnp hg hnt hlt hsp
      (L := fun p => procNrow g np p / effThreads nt (procNrow g np p) + procNrow g np p % effThreads nt (procNrow g np p))
      (fun p _ => threadRows_length) (W := addsOfJob g np nt) (fun p _ => addsOfJob_width p) (by omega) hc ho.init ho.total
      (u := fun i => (rng.unit (skip rng.unit i (rng.row rng.seed).2)).1) (fun i => hrng.unit _) hf
    have hpick : ∀ c : Fin k, ∃ r, r < g ∧ Copy fin val (cm c) (data r) ∧
        (c.val = 0 → r = (rng.row rng.seed).1) ∧
        (0 < c.val → ∃ d, NearMinTo (metricDist met) ((n + 4 : Nat) * 2 ^ (-52 : Int)) (metricSlack met)
            (fun r j => val (data r j)) g (fun c' => c' < c) (fun c j => val (cm c j)) d ∧
          NearSampled (drawErr (addsOfJob g np nt + (np - 1)) 0 g) (2 ^ (-1073 : Int)) d g
            (val (rng.unit (skip rng.unit (c.val - 1) (rng.row rng.seed).2)).1) r) := by
      intro c
      rcases Nat.eq_zero_or_pos c.val with h | h
      · exact ⟨_, hf, (q3 c).1 h, fun _ => rfl, fun h' => by omega⟩
      · obtain ⟨r, d, w1, w2, w3⟩ := (q3 c).2 h
        exact ⟨r, w3.1, w1, fun h' => by omega, fun _ => ⟨d, w2, w3⟩⟩
    choose rw_ hr_ hv_ hz_ hp_ using hpick
    refine ⟨fun p => ⟨(ps p).cltrs, fun r => ((ps p).slots r).assign, (ps p).cltrs.num, 0⟩, cm, fun c => data (rw_ c), e0,
      ?_, fun p hp => q1 p hp, fun c => hcopy (hr_ c) (hv_ c), fun c j => (hv_ c j).2, fun c => ⟨fun h => ?_, fun h => ?_⟩⟩
    · unfold runInitDistBy; dsimp only; rw [e]
    · dsimp only
      rw [hz_ c h, hdata _ hf]
    · obtain ⟨d, w1, w2⟩ := hp_ c h
      refine ⟨rw_ c, d, _, hdata _ (hr_ c), ?_, outputs_get _ _ _ _ (by have := c.isLt; omega), ?_⟩
      · intro q hq
        have := w1 q hq
        dsimp only at this ⊢
        rw [hdata q hq] at this
        have hcm : ∀ c', (fun j => val (cm c' j)) = fun j => val (data (rw_ c') j) := fun c' =>
          funext fun j => (hv_ c' j).2
        simp only [hcm] at this
        exact this
      · have heq : drawErr (addsOfJob g np nt + (np - 1)) 0 g = ((addsOfJob g np nt + np + g + 1 : Nat) : ℝ) * 2 ^ (-52 : Int) := by
          unfold drawErr
          congr 2
          omega
        rw [← heq]
        exact w2

/-! ### The job -/

omit [Zero R] [Add R] [Sub R] [Mul R] [IntCast R] [LT R] in
/-- A result only depends on the rows that exist, on the values of the start, and rank 0 can stand for the job. -/
theorem job_data {dist : (Fin n → ℝ) → (Fin n → ℝ) → ℝ} {γ ζ e e' η : ℝ} (he : e ≤ e') {N np : Nat} (hnp : 0 < np)
    {data data' : Nat → Row R n} (hd : ∀ r, r < N → data r = data' r) {cents0 cents0' : Fin k → Fin n → R}
    (hc : ∀ c j, val (cents0 c j) = val (cents0' c j)) {tol : R} {maxIters iters : Nat} {same : Prop}
    {assign : Nat → Option (Fin k)} {counts : Nat → Fin k → Int} {cents : Nat → Fin k → Fin n → R}
    (h : NearJobResult fin val dist γ ζ e η N np data cents0 tol maxIters same iters assign counts cents) :
    NearJobResult fin val dist γ ζ e' η N 1 data' cents0' tol maxIters same iters assign (fun _ => counts 0)
      (fun _ => cents 0) := by
  have hm : ∀ (f : R → ℝ) (a : Nat → Option (Fin k)) c j, memberMean N (fun r j => f (data r j)) a c j =
      memberMean N (fun r j => f (data' r j)) a c j := fun f a c j =>
    memberMean_data (fun r hr => by rw [hd r hr]) a c j
  have hc' : (fun c j => val (cents0 c j)) = fun c j => val (cents0' c j) := funext fun c => funext fun j => hc c j
  obtain ⟨m, tr, h1, h2, h3, h4, h5, h6, h7, h8, h9, h10⟩ := NearJobResult.mono he h
  refine ⟨m, tr, h1, h2, ⟨h3.cents.trans hc', h3.unassigned, fun i hi => ⟨fun r hr => ?_, fun c j => ?_⟩⟩, h4, h5, h6, h7,
    fun p hp => ⟨(h8 0 hnp).1, rfl⟩, h9, fun hs hch r hr => ?_⟩
  · rw [← hd r hr]; exact (h3.step i hi).assigned r hr
  · rw [← hm val, ← hm fun x => |val x|]; exact (h3.step i hi).means c j
  · rw [← hd r hr]; exact h10 hs hch r hr

/-- **C112.**  On IEEE doubles, for every initialisation, every number of processes (at most one per row) and of threads,
all interleavings, all draws of the engine and every order of every reduction, a job with the Euclidean, squared Euclidean
or taxicab metric on rows and given centres no larger than `2^400` never fails, and it returns what it owes: Lloyd's
algorithm on the whole matrix up to rounding, from the start that the initialisation promises up to rounding.  A job whose
option names are not among the documented ones throws. -/
theorem C112_job [DecidableLT R] [DecidableLE R] (hI : IeeeDouble fin val sqrt abs')
    (hbig : fin big ∧ val big = maxDouble) (cosd : Row R n → Row R n → R) {c : Codec R B} (hc : CodecOk c)
    (rng : Rng R S k) (sched1 sched2 : Nat → Nat → List Nat) (a : Job R B) (o : Orders k n) (ho : o.Ok a.nprocs)
    (m : Nat → Nat → R)
    (given : Option (Nat → Nat → R)) (hk : 0 < k) (hcol : 0 < n) (hcol' : n ≤ 4294967296) (hnp : 0 < a.nprocs)
    (hn : a.nprocs ≤ a.nrow) (hnt : 0 < a.nthreads) (hlt : a.nrow < 4294967296)
    (hsz : a.nrow * n * c.size < 9223372036854775808)
    (hst : Stores c a.bytes m a.nrow n) (hgiven : a.centers = given.map fun g => rowsFrom g n 0 k)
    (hrng : RngFin fin val rng a.nrow)
    (hc1 : SchedOk a.nrow a.nprocs a.nthreads sched1) (hc2 : SchedOk a.nrow a.nprocs a.nthreads sched2)
    (hm : ∀ r j, r < a.nrow → j < n → fin (m r j) ∧ |val (m r j)| ≤ 2 ^ (400 : Int))
    (hg : ∀ g, given = some g → ∀ r j, r < k → j < n → fin (g r j) ∧ |val (g r j)| ≤ 2 ^ (400 : Int)) :
    ((a.init ∉ ["random", "forgy", "kmeanspp", "none"] ∨ a.dist ∉ ["eucl", "cos", "taxi", "sqeucl"]) →
      kmeansDistIn o (anyDist sqrt abs' cosd) big c rng sched1 sched2 a = .error .throws) ∧
    ∀ it met, getInit a.init = .ok it → getDist a.dist = .ok met → met ≠ .cos →
      ∃ res, kmeansDistIn o (anyDist sqrt abs' cosd) big c rng sched1 sched2 a = .ok res ∧
        NearDeliversJob fin val it met (matRows m) a.nrow a.nprocs a.nthreads rng (givenCents given) a.tol a.maxIters
          (∀ i, o.run i = o.run 0) res := by
  constructor
  · intro h
    unfold kmeansDistIn kmeansDistBy
    by_cases h1 : a.init ∈ ["random", "forgy", "kmeanspp", "none"]
    · obtain ⟨it, e⟩ := (names_ok a.init a.dist).2.2 h1
      rw [e]
      dsimp only
      rw [(names_ok a.init a.dist).2.1 (h.resolve_left fun hh => hh h1)]
    · rw [(names_ok a.init a.dist).1 h1]
  intro it met hi hd hcos
  obtain ⟨ws, el, hrows⟩ := loadRanks_ok hc m hnp hn hnt hcol hlt hsz hst
  have hbox : ∀ r, r < a.nrow → InBox (n := n) fin val (2 ^ (400 : Int)) (matRows m r) := fun r hr j =>
    hm r j.val hr j.isLt
  have hgbox : ∀ g, givenCents (k := k) (n := n) given = some g → ∀ c, InBox fin val (2 ^ (400 : Int)) (g c) := by
    intro g h c j
    cases given with
    | none => cases h
    | some g' =>
      rw [← Option.some.inj h]
      exact hg g' rfl c.val j.val c.isLt j.isLt
  obtain ⟨cl, procs, cm, c0, e0, es, hmeans, hb, hv, hstart⟩ := runInitDistBy_near hI hbig cosd hcos rng
    (rowsInRanks ws a.nrow a.nprocs a.nthreads) (matRows m) a.nrow a.nprocs a.nthreads hrows hk hnp hn hnt hlt hcol' hbox
    hrng ho sched1 hc1 it given hgbox
  have hcall : ∀ res v, Distr.runBy (fun i c j x => (o.run i c j).eval x) (anyDist sqrt abs' cosd met) big
        (rowsInRanks ws a.nrow a.nprocs a.nthreads) a.nrow a.nprocs a.nthreads a.tol a.maxIters sched2 procs = .ok res →
      Distr.gather a.nrow a.nprocs (fun p => (res.procs p).assign) = .ok v →
      kmeansDistIn o (anyDist sqrt abs' cosd) big c rng sched1 sched2 a =
        .ok ⟨res.iters, v, (res.procs 0).counts, (res.procs 0).cltrs.means⟩ := by
    intro res v er ev
    unfold kmeansDistIn kmeansDistBy
    rw [hi]
    dsimp only
    rw [hd]
    dsimp only
    rw [hgiven, e0]
    dsimp only
    rw [Distr.construct_ok hnp hn]
    dsimp only
    rw [el]
    dsimp only
    rw [es]
    dsimp only
    rw [er]
    dsimp only
    rw [ev]
  have hWl := addsOfJob_le (g := a.nrow) hnp hn hnt
  rcases Nat.eq_zero_or_pos a.maxIters with h0 | hpos
  · obtain ⟨v, ev, _⟩ := Distr.gather_eq (g := a.nrow) hnp (fun p => (procs p).assign)
    refine ⟨_, hcall ⟨0, procs⟩ v ?_ ev, c0, hstart, fun _ => ⟨rfl, fun c j => ?_⟩, fun h => by omega⟩
    · unfold Distr.runBy
      rw [Distr.construct_ok hnp hn, h0]
      rfl
    · dsimp only
      rw [hmeans 0 hnp]
      exact ⟨(hb c j).1, hv c j⟩
  · have hin : JobInput fin val big (rowsInRanks (n := n) ws a.nrow a.nprocs a.nthreads) a.nrow a.nprocs a.nthreads
        (addsOfJob a.nrow a.nprocs a.nthreads) (fun (_ : Fin k) (_ : Fin n) => (0 : R)) :=
      ⟨hk, hnp, hn, hnt, hlt, hcol', fun p _ => addsOfJob_width p, by omega, hbig,
        fun r hr => by rw [hrows r hr]; exact hbox r hr, fun _ _ => by
        rw [hI.zero.2, abs_zero]; exact ⟨hI.zero.1, (p_pos _).le⟩⟩
    obtain ⟨res, v, er, ev, h⟩ := C101_near hI.rounds hk (dist_double hI hbig hcol' cosd hcos).1 _ a.nrow a.nprocs
      a.nthreads _ a.tol a.maxIters sched2 hin.sizes o.run ho.run cm hb procs hmeans hpos hc2
    refine ⟨_, hcall res v er ev, c0, hstart, fun h => by omega, fun _ => ?_⟩
    exact job_data (pow_rounds (m := addsOfJob a.nrow a.nprocs a.nthreads + a.nprocs) (by omega)).1 hnp hrows hv h

omit [Add R] [Sub R] [Mul R] [IntCast R] [LT R] in
/-- **C112, separated data.**  If the exact iterations from that start are separated by more than the errors, the
job returns exactly the clusters of Lloyd's algorithm, whatever the order of the reductions is (`δ` bounds the distance
of the centroids to the exact ones). -/
theorem C112_separated [DecidableLE R] {it : InitT} {met : Dist.Metric} (hmet : met = .eucl ∨ met = .taxi)
    {data : Nat → Fin n → R} {N np nt : Nat} {rng : Rng R S k} {given : Option (Fin k → Fin n → R)} {tol : R}
    {maxIters : Nat} {same : Prop} {res : JobResult R k n} (hcol : n ≤ 4294967296) (hnp : 0 < np) (hn : np ≤ N)
    (hnt : 0 < nt) (hlt : N < 4294967296)
    (h : NearDeliversJob fin val it met data N np nt rng given tol maxIters same res) (hm : 0 < maxIters)
    (X : ℝ) (hX0 : 0 ≤ X) (hX : ∀ r, r < N → ∀ j, |val (data r j)| ≤ X)
    (δ : ℝ) (hδ : δ = (addsOfJob N np nt + np : Nat) * 2 ^ (-52 : Int) * X + 2 ^ (-1075 : Int)) :
    ∃ c0, NearStartsAt fin val it (metricDist met) ((n + 4 : Nat) * 2 ^ (-52 : Int)) (metricSlack met)
        ((N / np + N % np + np : Nat) * 2 ^ (-52 : Int)) (2 ^ (-1075 : Int))
        ((addsOfJob N np nt + np + N + 1 : Nat) * 2 ^ (-52 : Int)) (2 ^ (-1073 : Int)) data N rng given c0 ∧
      ∀ tr, LloydTrace (metricDist met) N (fun r j => val (data r j)) (fun c j => val (c0 c j)) tr →
        (∀ i, i < maxIters → Separated (metricDist met) ((n + 4 : Nat) * 2 ^ (-52 : Int)) (metricSlack met)
          (if met = .eucl then √n * δ else n * δ) N (fun r j => val (data r j)) (tr i) (tr (i + 1))) →
        SameClustersJob val δ N 1 tol maxIters tr res.iters res.assign (fun _ => res.sizes) (fun _ => res.means) := by
  obtain ⟨c0, h1, _, h3⟩ := h
  have hWl := addsOfJob_le (g := N) hnp hn hnt
  refine ⟨c0, h1, fun tr hl hs => ?_⟩
  rw [hδ]
  refine C101_near_is_lloyd (gamma_le (by omega)).1 (gamma_le (by omega)).2 (gamma_le (by omega)).2 (p_pos _).le
    hX0 hX ?_ (h3 hm) tr hl hs
  intro x y y' hy
  rw [← hδ] at hy
  rcases hmet with rfl | rfl
  · rw [if_pos rfl]; exact eucl_lip hy
  · rw [if_neg (by decide)]; exact taxi_lip hy

/-! ### The program -/

/-- With reductions in rank order this is the program of C85. -/
theorem C112_knord_rank_order [DecidableLT R] [DecidableLE R] (dist : Dist.Metric → Row R n → Row R n → R) (big : R)
    (c : Codec R B) (rng : Rng R S k) (sched1 sched2 : Nat → Nat → List Nat) (datafn : List B) (opts : List (StartOpt B))
    (nrow nprocs maxIters nthreads : Nat) (tol : R) (distType : String) :
    knordFullWith (fun a => kmeansDistBy (fun _ _ _ x => allreduce a.nprocs x) (fun _ x => allreduce a.nprocs x)
      (fun _ _ _ x => allreduce a.nprocs x) dist big c rng sched1 sched2 a) c datafn opts nrow nprocs maxIters nthreads tol
      distType = knord true dist big c rng sched1 sched2 datafn opts nrow nprocs maxIters nthreads tol distType := by
  have h := funext (C112_rank_order dist big c rng sched1 sched2)
  rw [h]
  unfold knordFullWith knord knordWith
  cases startOptions opts "kmeanspp" none with
  | error e => rfl
  | ok p =>
    obtain ⟨i, f⟩ := p
    dsimp only
    split
    · rfl
    · split
      · rfl
      · cases f with
        | none => rfl
        | some f =>
          dsimp only
          cases (BinIo.openRead f k n).read c <;> rfl

/-- **C112, the program.**  What `knord -P` does on doubles: it refuses a file of centres that does not exist, `none`
without a file of centres, and a data file whose size does not fit; otherwise the last of the options `-t` and `-C` names
the initialisation, and the program returns what the job owes. -/
theorem C112_knord [DecidableLT R] [DecidableLE R] (hI : IeeeDouble fin val sqrt abs')
    (hbig : fin big ∧ val big = maxDouble) (cosd : Row R n → Row R n → R) {c : Codec R B} (hc : CodecOk c)
    (rng : Rng R S k) (sched1 sched2 : Nat → Nat → List Nat) (o : Orders k n)
    (datafn : List B) (opts : List (StartOpt B)) (nrow nprocs maxIters nthreads : Nat) (tol : R)
    (distType : String) (ho : o.Ok nprocs) (hk : 0 < k) (hcol : 0 < n) (hcol' : n ≤ 4294967296) (hnp : 0 < nprocs)
    (hn : nprocs ≤ nrow) (hnt : 0 < nthreads) (hlt : nrow < 4294967296)
    (hsz : nrow * n * c.size < 9223372036854775808) (hszk : k * n * c.size < 18446744073709551616)
    (hrng : RngFin fin val rng nrow)
    (hc1 : SchedOk nrow nprocs nthreads sched1) (hc2 : SchedOk nrow nprocs nthreads sched2) :
    let prog := knordFullWith (n := n) (kmeansDistIn o (anyDist sqrt abs' cosd) big c rng sched1 sched2) c datafn opts nrow
      nprocs maxIters nthreads tol distType
    ((none ∈ centerFiles opts ∨ centerFiles opts = [] ∧ lastInit opts = "none") → prog = .error .assertFail) ∧
    (none ∉ centerFiles opts → ¬ (centerFiles opts = [] ∧ lastInit opts = "none") →
      datafn.length ≠ nrow * n * c.size → prog = .error .throws) ∧
    ∀ (m : Nat → Nat → R) (given : Option (Nat → Nat → R)) it met,
      Stores c datafn m nrow n → none ∉ centerFiles opts →
      (centerFiles opts).getLast? = given.map (fun g => some ((rowsFrom g n 0 k).flatMap c.enc)) →
      (∀ r j, r < nrow → j < n → fin (m r j) ∧ |val (m r j)| ≤ 2 ^ (400 : Int)) →
      (∀ g, given = some g → ∀ r j, r < k → j < n → fin (g r j) ∧ |val (g r j)| ≤ 2 ^ (400 : Int)) →
      getInit (lastInit opts) = .ok it → (it = .none → given.isSome) →
      getDist distType = .ok met → met ≠ .cos →
      ∃ res, prog = .ok res ∧
        NearDeliversJob fin val it met (matRows m) nrow nprocs nthreads rng (givenCents given) tol maxIters
          (∀ i, o.run i = o.run 0) res := by
  have hu : u64 (u64 (c.size * nrow) * n) = nrow * n * c.size := by
    have h0 : c.size * nrow * n = nrow * n * c.size := by ring
    rw [u64_mul (by omega), h0]
  have hopt : none ∉ centerFiles opts → startOptions opts "kmeanspp" none =
      .ok (lastInit opts, ((centerFiles opts).getLast?).getD none) := fun h => by
    rw [(startOptions_ok opts _ _).2 h]
    by_cases hl : opts = []
    · subst hl
      rfl
    · rw [if_neg hl]
  dsimp only
  refine ⟨?_, ?_, ?_⟩
  · intro h
    unfold knordFullWith
    by_cases hx : none ∈ centerFiles opts
    · rw [(startOptions_ok opts _ _).1 hx]
    · obtain ⟨e1, e2⟩ := h.resolve_left hx
      rw [hopt hx]
      simp [e1, e2]
  · intro hx h hne
    unfold knordFullWith
    rw [hopt hx]
    dsimp only
    rw [if_neg, if_pos (by rw [hu]; exact hne)]
    rintro ⟨h2, h3⟩
    refine h ⟨?_, h2⟩
    by_contra hcf
    rw [List.getLast?_eq_getLast_of_ne_nil hcf] at h3
    have hmem := List.getLast_mem hcf
    cases e : (centerFiles opts).getLast hcf with
    | none => rw [e] at hmem; exact hx hmem
    | some b => rw [e] at h3; simp at h3
  · intro m given it met hst hx hcf hm hg hi hnone hd hcos
    have hlen : datafn.length = nrow * n * c.size := by
      unfold Stores at hst
      rw [hst, length_enc hc, length_rowsFrom]
    unfold knordFullWith
    rw [hopt hx, hcf]
    dsimp only
    cases given with
    | none =>
      have hne : lastInit opts ≠ "none" := by
        intro he
        rw [he] at hi
        have := hnone (Except.ok.inj hi).symm
        simp at this
      rw [if_neg (by simp [hne]), if_neg (by rw [hu]; simp [hlen])]
      simp only [Option.map_none, Option.getD_none]
      exact (C112_job hI hbig cosd hc rng sched1 sched2
        ⟨datafn, nrow, nprocs, maxIters, nthreads, none, lastInit opts, tol, distType⟩ o ho m none hk hcol hcol' hnp hn hnt
        hlt hsz hst rfl hrng hc1 hc2 hm hg).2 it met hi hd hcos
    | some g =>
      rw [if_neg (by simp), if_neg (by rw [hu]; simp [hlen])]
      obtain ⟨y, ey⟩ := read_stored (n := n) hc g k (Nat.mul_pos hk hcol) hszk rfl
      simp only [Option.map_some, Option.getD_some]
      rw [ey]
      exact (C112_job hI hbig cosd hc rng sched1 sched2
        ⟨datafn, nrow, nprocs, maxIters, nthreads, some (rowsFrom g n 0 k), lastInit opts, tol, distType⟩ o ho m (some g) hk
        hcol hcol' hnp hn hnt hlt hsz hst rfl hrng hc1 hc2 hm hg).2 it met hi hd hcos

/-! ### Jobs that meet the hypotheses -/

/-- Two ranks; the order changes from one reduction to the next. -/
def demoOrders : Orders 2 1 where
  init := fun i c j => sepTree i c j
  total := fun i => sepTree (i + 1) 0 0
  run := sepTree

theorem demoOrders_ok : demoOrders.Ok 2 := ⟨fun i c j => sepTree_ok i c j, fun i => sepTree_ok (i + 1) 0 0, sepTree_ok⟩

/-- Every initialisation and every treated metric on the rows 0, 1, 2, 3 in a file, with two processes of two threads. -/
theorem dbl_job (init dist : String) (maxIters : Nat) (it : InitT) (met : Dist.Metric)
    (hi : getInit init = .ok it) (hd : getDist dist = .ok met) (hcos : met ≠ .cos) :
    ∃ res, kmeansDistIn demoOrders (anyDist (fun x => Dbl.rnd (√x.v)) (fun x => ⟨|x.v|⟩) fun _ _ => 0) ⟨maxDouble⟩
        (oneCell Dbl) dblRng demoScheds demoScheds
        ⟨[⟨0⟩, ⟨1⟩, ⟨2⟩, ⟨3⟩], 4, 2, maxIters, 2, none, init, ⟨0⟩, dist⟩ = .ok res ∧
      NearDeliversJob Dbl.Fin' Dbl.v it met (matRows fun r _ => ⟨(r : ℝ)⟩) 4 2 2 dblRng none ⟨0⟩ maxIters
        (∀ i, sepTree i = sepTree 0) res :=
  (C112_job (n := 1) Dbl.ieee dbl_input.big (fun _ _ => 0) (oneCell_ok Dbl) dblRng demoScheds demoScheds
    ⟨[⟨0⟩, ⟨1⟩, ⟨2⟩, ⟨3⟩], 4, 2, maxIters, 2, none, init, ⟨0⟩, dist⟩ demoOrders demoOrders_ok (fun r _ => ⟨(r : ℝ)⟩) none
    (by norm_num) (by norm_num) (by norm_num) (by norm_num) (by norm_num) (by norm_num) (by norm_num)
    (by simp [oneCell])
    (by simp [Stores, oneCell, rowsFrom, rowOf, List.range', List.range_succ]) rfl dblRng_fin demoScheds_ok demoScheds_ok
    (fun r j hr _ => dbl_small r (by have : r < 4 := hr; omega)) (fun g h => by cases h)).2 it met hi hd hcos

/-- k-means++ with the Euclidean metric. -/
example : ∃ res, kmeansDistIn demoOrders (anyDist (fun x => Dbl.rnd (√x.v)) (fun x => ⟨|x.v|⟩) fun _ _ => 0) ⟨maxDouble⟩
      (oneCell Dbl) dblRng demoScheds demoScheds
      ⟨[⟨0⟩, ⟨1⟩, ⟨2⟩, ⟨3⟩], 4, 2, 5, 2, none, "kmeanspp", ⟨0⟩, "eucl"⟩ = .ok res ∧
    NearDeliversJob Dbl.Fin' Dbl.v .plusplus .eucl (matRows fun r _ => ⟨(r : ℝ)⟩) 4 2 2 dblRng none ⟨0⟩ 5
      (∀ i, sepTree i = sepTree 0) res :=
  dbl_job "kmeanspp" "eucl" 5 .plusplus .eucl rfl rfl (by decide)

/-- The program on the rows 0, 1, 10, 11 with a file of centres 0 and 10, two processes, and the exact clusters that it
returns. -/
example (tol : Dbl) : ∃ res,
    knordFullWith (kmeansDistIn demoOrders (anyDist (fun x => Dbl.rnd (√x.v)) (fun x => ⟨|x.v|⟩) fun _ _ => 0) ⟨maxDouble⟩
      (oneCell Dbl) dblRng demoScheds demoScheds) (oneCell Dbl)
      ((rowsFrom (fun r _ => (⟨(sepRow r : ℝ)⟩ : Dbl)) 1 0 4).flatMap (oneCell Dbl).enc)
      [.centers (some ((rowsFrom (fun r _ => (⟨((if r = 0 then 0 else 10 : Nat) : ℝ)⟩ : Dbl)) 1 0 2).flatMap
        (oneCell Dbl).enc))] 4 2 5 2 tol "eucl" = .ok res ∧
    SameClustersJob Dbl.v ((5 : Nat) * 2 ^ (-52 : Int) * 11 + 2 ^ (-1075 : Int)) 4 1 tol 5 sepTrace res.iters
      res.assign (fun _ => res.sizes) (fun _ => res.means) := by
  have h4 : ∀ r, r < 4 → sepRow r ≤ 11 := by
    intro r hr
    have : r = 0 ∨ r = 1 ∨ r = 2 ∨ r = 3 := by omega
    rcases this with rfl | rfl | rfl | rfl <;> decide
  obtain ⟨res, er, h⟩ := (C112_knord (k := 2) (n := 1) Dbl.ieee dbl_input.big (fun _ _ => 0) (oneCell_ok Dbl) dblRng
    demoScheds demoScheds demoOrders ((rowsFrom (fun r _ => (⟨(sepRow r : ℝ)⟩ : Dbl)) 1 0 4).flatMap (oneCell Dbl).enc)
      [.centers (some ((rowsFrom (fun r _ => (⟨((if r = 0 then 0 else 10 : Nat) : ℝ)⟩ : Dbl)) 1 0 2).flatMap
        (oneCell Dbl).enc))] 4 2 5 2 tol "eucl" demoOrders_ok
    (by decide) (by decide) (by decide) (by decide) (by decide) (by decide) (by decide) (by decide) (by decide) dblRng_fin
    demoScheds_ok demoScheds_ok).2.2 _ (some fun r _ => ⟨((if r = 0 then 0 else 10 : Nat) : ℝ)⟩) .none .eucl rfl
    (by simp [centerFiles]) rfl
    (fun r j hr _ => dbl_small (sepRow r) (by have := h4 r hr; omega))
    (fun g h r j _ _ => by
      rw [← Option.some.inj h]
      exact dbl_small _ (by split_ifs <;> norm_num)) rfl (fun _ => rfl) rfl (by decide)
  refine ⟨res, er, ?_⟩
  obtain ⟨c0, h1, h2⟩ := C112_separated (.inl rfl) (by norm_num) (by norm_num) (by norm_num) (by norm_num) (by norm_num) h
    (by norm_num) 11 (by norm_num) (fun r hr j => by
      have : ((sepRow r : Nat) : ℝ) ≤ ((11 : Nat) : ℝ) := by exact_mod_cast h4 r hr
      simpa [matRows] using this) _ rfl
  have e0 := h1.1 _ rfl
  subst e0
  refine h2 sepTrace ?_ fun i _ => ?_
  · have e1 : (fun (c : Fin 2) (_ : Fin 1) => (sepInit.cltrs.means c 0).v) =
        fun c _ => ((if c.val = 0 then 0 else 10 : Nat) : ℝ) := by
      funext c _
      fin_cases c <;> rfl
    have := sep_lloyd
    refine ⟨this.cents.trans e1, this.unassigned, this.step⟩
  · have := sep_separated i
    rw [if_pos rfl]
    exact this

end Knor.Driver
