import Verif.Lemmas.JobPrune
import Verif.Spec.NearJobPruned
import Verif.Props.JobDouble
import Verif.Props.DistrPrunedNear
import Verif.Props.DistrPrunedDriver

/-!
# Property C113: a whole pruned distributed job on doubles

C86 is about exact arithmetic and C102 about a run on doubles from given centroids.  Here is the whole job of `knord`
without `-P`, from the names of the options and the file to what is returned, on IEEE doubles, for every initialisation
and with every reduction in an order of the MPI library's choice.  Pruning keeps numbers from the initialisation
(k-means++ leaves distances in the upper bounds) and from one iteration to the next.
-/

namespace Knor.Driver

open Knor Knor.Par Knor.Partition Knor.Spec Knor.NearLloyd Knor.Kmeans Knor.Distr Knor.Init Knor.Io

variable {R S B : Type _} {k n : Nat} [Zero R] [Add R] [Sub R] [Mul R] [Div R] [IntCast R] [NatCast R] [LT R] [LE R]
  {fin : R → Prop} {val : R → ℝ} {sqrt abs' : R → R} {big : R}

/-! ### Reductions in rank order -/

/-- **C113, rank order.**  With every reduction made in rank order the job is the job of C86. -/
theorem C113_rank_order [DecidableLT R] [DecidableLE R] (dist : Dist.Metric → Row R n → Row R n → R) (big : R)
    (c : Codec R B) (rng : Rng R S k) (sched1 sched2 : Nat → Nat → List Nat) (a : Job R B) :
    kmeansDistPrunedBy (fun _ _ _ x => allreduce a.nprocs x) (fun _ x => allreduce a.nprocs x)
      (fun _ _ _ x => allreduce a.nprocs x) dist big c rng sched1 sched2 a =
    kmeansDistPruned dist big c rng sched1 sched2 a := by
  have hinit : ∀ m (data : Nat → Row R n) it (s0 : Prune.PState R R k n),
      runInitDistPrunedBy (fun _ _ _ x => allreduce a.nprocs x)
      (fun _ x => allreduce a.nprocs x) (dist m) rng data a.nrow a.nprocs a.nthreads sched1 it s0 =
      runInitDistPruned (dist m) rng data a.nrow a.nprocs a.nthreads sched1 it s0 := by
    intro m data it s0
    unfold runInitDistPrunedBy runInitDistPruned
    cases it with
    | none => rfl
    | random =>
      dsimp only
      unfold randomDistBy randomDist
      cases eachRank (fun p => randomLoop (emuNext rng.clust) (procData data a.nrow a.nprocs p)
        (procNrow a.nrow a.nprocs p) a.nthreads (List.range (procNrow a.nrow a.nprocs p))
        (emuCreate rng.clust rng.seed (a.nrow / a.nprocs * p)) s0.cltrs fun r => (s0.slots r).assign) a.nprocs
        (fun _ => (s0.cltrs, fun r => (s0.slots r).assign)) <;> rfl
    | forgy =>
      dsimp only
      unfold forgyDistBy forgyDist
      cases eachRank (fun p => forgyLoopDist rng.row data a.nrow a.nprocs p a.nthreads (List.finRange k) rng.seed
        s0.cltrs) a.nprocs (fun _ => s0.cltrs) <;> rfl
    | plusplus =>
      dsimp only
      unfold kppDistBy kppDist
      cases List.finRange k with
      | nil => rfl
      | cons c1 rest =>
        dsimp only
        simp only [kppLoopDistBy_rank_order]
        cases eachRank (fun p => firstDist data a.nrow a.nprocs p a.nthreads (rng.row rng.seed).1 c1
          (⟨s0.cltrs, fun r => ⟨(s0.slots r).ub, (s0.slots r).assign⟩⟩ : Kpp R R k n)) a.nprocs
          (fun _ => ⟨s0.cltrs, fun r => ⟨(s0.slots r).ub, (s0.slots r).assign⟩⟩) <;> rfl
  unfold kmeansDistPrunedBy kmeansDistPruned
  simp only [hinit]
  rfl

/-! ### The initialisation -/

/-- The initialisation of a pruned job on doubles. -/
theorem runInitDistPrunedBy_near [DecidableLT R] [DecidableLE R] (hI : IeeeDouble fin val sqrt abs')
    (hbig : fin big ∧ val big = maxDouble)
    (rng : Rng R S k) (data data' : Nat → Row R n) (g np nt : Nat) (hdata : ∀ r, r < g → data r = data' r)
    (hk : 1 < k) (hnp : 0 < np) (hg : np ≤ g) (hnt : 0 < nt) (hlt : g + 8192 < 4294967296) (hcol0 : 0 < n)
    (hcol : n ≤ 4294967296) {X E : ℝ} (hX1 : 2 ^ (-400 : Int) ≤ X) (hX2 : X + E ≤ 2 ^ (400 : Int))
    (hE : ((g + 1 : Nat) : ℝ) * 2 ^ (-52 : Int) * X + 2 ^ (-1075 : Int) ≤ E)
    (hrows : ∀ r, r < g → InBox fin val X (data' r)) (hrng : RngFin fin val rng g)
    {o : Orders k n} (ho : o.Ok np) (sched : Nat → Nat → List Nat) (hc : TaskSchedOk g np nt sched)
    (it : InitT) (given : Option (Nat → Nat → R))
    (hgiven : ∀ g, givenCents (k := k) (n := n) given = some g → ∀ c, InBox fin val X (g c)) :
    ∃ s0 procs s c0, constructPruned big it (given.map fun g => rowsFrom g n 0 k) = .ok s0 ∧
      runInitDistPrunedBy (fun i c j x => (o.init i c j).eval x) (fun i x => (o.total i).eval x)
        (Dist.euclAny sqrt) rng data g np nt sched it s0 = .ok procs ∧
      Rel g np procs s ∧ DistMatrix.WF k s.dm ∧ (∀ c, InBox fin val (X + E) (s.cltrs.means c)) ∧
      (∀ r, r < g → Prune.StartSlot fin val (fun x y => √(sqDistance x y))
        ((n + 6 : Nat) * 2 ^ (-52 : Int) * (2 * √n * (X + E))) (2 * (2 * √n * (X + E))) big (data r) s.cltrs.means
        (s.slots r)) ∧
      (∀ c j, val (s.cltrs.means c j) = val (c0 c j)) ∧
      NearStartsAt fin val it (metricDist .eucl) ((n + 4 : Nat) * 2 ^ (-52 : Int)) (metricSlack .eucl)
        ((g / np + g % np + np : Nat) * 2 ^ (-52 : Int)) (2 ^ (-1075 : Int))
        ((addsOfJob g np nt + np + g + 1 : Nat) * 2 ^ (-52 : Int))
        (2 ^ (-1073 : Int)) data' g rng (givenCents given) c0 := by
  have hX0 : 0 < X := (p_pos _).trans_le hX1
  have hE0 : 0 ≤ E := by
    refine le_trans ?_ hE
    have h1 := p_pos (-52)
    have h2 := p_pos (-1075)
    positivity
  have hrows' : ∀ r, r < g → InBox fin val X (data r) := fun r hr => by
    rw [hdata r hr]; exact hrows r hr
  have hX4 : X ≤ 2 ^ (400 : Int) := by linarith
  have hrows4 : ∀ r, r < g → InBox fin val (2 ^ (400 : Int)) (data r) := fun r hr => Kmeans.InBox.mono (hrows' r hr) hX4
  have hcopy : ∀ {y : Row R n} {r}, r < g → Copy fin val y (data r) → InBox fin val (X + E) y :=
    fun {y r} hr hy j => ⟨(hy j).1, by rw [(hy j).2]; exact ((hrows' r hr j).2).trans (by linarith)⟩
  obtain ⟨s0, e0, ec, em, h1, h2, h3, h4⟩ := constructPruned_ok (k := k) (n := n) big hk it given
  obtain ⟨m', em', wf, -⟩ := DistMatrix.create_wf (big := big) (k := k) hk
  rw [em] at em'
  obtain rfl := Except.ok.inj em'
  obtain ⟨cl, ec', k0, k1⟩ := construct_ok (k := k) (n := n) (by omega) it given
  rw [ec] at ec'
  obtain rfl := Except.ok.inj ec'
  refine ⟨s0, ?_⟩
  cases it with
  | none =>
    obtain ⟨w1, w2⟩ := k1 rfl
    refine ⟨_, { s0 with counts := s0.cltrs.num }, s0.cltrs.means, e0, rfl, ⟨fun _ _ => rfl, fun _ _ => rfl,
      fun _ _ => rfl, fun _ _ => rfl, fun _ _ => rfl, fun _ _ => rfl, fun _ _ => rfl, fun p r _ _ => ?_⟩, wf, ?_,
      fun r _ => .inl ?_, fun _ _ => rfl, fun g hg => ?_, fun hg => w2 (by unfold givenCents at hg; simpa using hg)⟩
    · dsimp only
      rw [h3, h3]
    · intro c
      dsimp only
      cases given with
      | none =>
        intro j
        rw [w2 rfl c j, hI.zero.2, abs_zero]
        exact ⟨hI.zero.1, by linarith⟩
      | some g' =>
        rw [w1 g' rfl]
        exact Kmeans.InBox.mono (hgiven _ rfl c) (by linarith)
    · dsimp only
      rw [h3]
    · cases given with
      | none => cases hg
      | some g' =>
        rw [← Option.some.inj hg]
        exact w1 g' rfl
  | forgy =>
    have hemp := k0 (by decide)
    obtain ⟨cs, cm, e, q1, q2⟩ := forgyDistBy_near (k := k) hI rng.row rng.seed hnp hnt (show g < 4294967296 by omega)
      hrng.row (fun r hr j => (hrows' r hr j).1) (ho.init 0)
    have hbl := forgyDistBy_blank e fun _ _ => ⟨fun _ => rfl, fun _ => rfl⟩
    have hcs : ∀ p, p < np → cs p = cs 0 := fun p hp => by
      apply Clusters.ext
      · rw [q1 p hp, q1 0 hnp]
      · funext c
        rw [(hbl p hp).1, (hbl 0 hnp).1]
      · funext c
        rw [(hbl p hp).2, (hbl 0 hnp).2]
    choose rw_ hr_ ho_ hv_ using q2
    refine ⟨_, { s0 with cltrs := cs 0, counts := (cs 0).num }, fun c => data (rw_ c), e0, by
        unfold runInitDistPrunedBy; dsimp only; rw [hemp, e],
      ⟨fun p hp => hcs p hp, fun _ _ => rfl, fun _ _ => rfl, fun _ _ => rfl, fun _ _ => rfl,
        fun p hp => by dsimp only; rw [hcs p hp], fun _ _ => rfl, fun p r _ _ => by dsimp only; rw [h3, h3]⟩, wf,
      fun c => ?_, fun r _ => .inl (by dsimp only; rw [h3]), fun c j => ?_,
      fun c => ⟨rw_ c, hr_ c, ho_ c, hdata _ (hr_ c)⟩⟩
    · dsimp only
      rw [q1 0 hnp]
      exact hcopy (hr_ c) (hv_ c)
    · dsimp only
      rw [q1 0 hnp]
      exact (hv_ c j).2
  | random =>
    have hemp := k0 (by decide)
    obtain ⟨st, cm, A, e, q1, q2, q3, q4⟩ := randomDistBy_near hI rng.clust rng.seed hnp hg hnt
      (show g < 4294967296 by omega) hrows4 (ho.init 0)
    have hb := randomDistBy_blank e
    have e' : randomDistBy (fun c j x => (o.init 0 c j).eval x) rng.clust rng.seed data g np nt
        (fun _ => (s0.cltrs, fun r => (s0.slots r).assign)) = .ok st := by
      rw [← e, hemp]
      simp only [h3]
    have hcs : ∀ p, p < np → (st p).1 = (st 0).1 := fun p hp => by
      apply Clusters.ext
      · rw [q1 p hp, q1 0 hnp]
      · funext c
        exact (hb p c).2
      · funext c
        rw [(hb p c).1, (hb 0 c).1]
    have hbox : ∀ c, InBox fin val (X + E) (cm c) := by
      intro c j
      refine ⟨(q3 c j).1, Driver.mean_box (P := 1 + (g + 1 : Nat) * 2 ^ (-52 : Int)) hX0.le ?_ hrows'
        (a := A) (c := c) (j := j) (η := 2 ^ (-1075 : Int)) ?_ ?_⟩
      · have := p_pos (-52); positivity
      · refine (q4 c j).trans (add_le_add (mul_le_mul_of_nonneg_right ?_ ?_) le_rfl)
        · rw [add_sub_cancel_left]
          refine mul_le_mul_of_nonneg_right ?_ (p_pos _).le
          have h3 := Nat.div_add_mod g np
          have h4 : 1 ≤ g / np := Nat.div_pos hg hnp
          have : g / np + g % np + np ≤ g + 1 := by
            generalize g / np = q at *
            generalize g % np = r at *
            obtain ⟨q', rfl⟩ := Nat.exists_eq_add_of_le h4
            obtain ⟨T', rfl⟩ := Nat.exists_eq_add_of_le (show 1 ≤ np by omega)
            have : (1 + T') * (1 + q') = 1 + T' + q' + T' * q' := by ring
            rw [this] at h3
            generalize T' * q' = z at *
            omega
          exact_mod_cast this
        · unfold memberMean
          split
          · exact le_rfl
          · exact div_nonneg (Finset.sum_nonneg fun _ _ => abs_nonneg _) (Nat.cast_nonneg _)
      · rw [add_mul, one_mul]
        linarith
    set procs : Nat → DProc R R k n := fun p => ⟨{ s0 with
        cltrs := (st p).1, slots := fun r => { s0.slots r with assign := (st p).2 r }, counts := (st p).1.num },
        fun _ => 0⟩ with hprocs
    refine ⟨procs, joinRanks g np procs, cm, e0, by unfold runInitDistPrunedBy; dsimp only; rw [e'],
      rel_join hnp hg fun p hp => ?_, wf, fun c => ?_, join_slots hnp hg fun p l _ _ => .inl ?_, fun c j => ?_, A, q2,
      fun c j => ⟨(q3 c j).1, ?_⟩⟩
    · rw [hprocs]; dsimp only; rw [hcs p hp]
    · show InBox fin val (X + E) ((st 0).1.means c)
      rw [q1 0 hnp]; exact hbox c
    · rw [hprocs]; dsimp only; rw [h3]
    · show val ((st 0).1.means c j) = _
      rw [q1 0 hnp]
    · have hm : ∀ f : R → ℝ, memberMean g (fun r j => f (data r j)) A c j =
          memberMean g (fun r j => f (data' r j)) A c j := fun f =>
        memberMean_data (fun r hr => by rw [hdata r hr]) A c j
      rw [← hm val, ← hm fun x => |val x|]
      exact q4 c j
  | plusplus =>
    have hemp := k0 (by decide)
    have hf := hrng.row rng.seed
    have hsp : ∀ p, p < np → Split (procNrow g np p) (effThreads nt (procNrow g np p))
        (Prune.taskRows (procNrow g np p) nt) := fun p hp => by
      have := Distr.procNrow_le (g := g) hp
      exact Prune.split_taskRows (Distr.procNrow_pos hnp hg) hnt (by omega)
    have hWl := addsOfJob_le hnp hg hnt
    have hmet := metricRounds_double (B := X + E) hI hbig hcol0 hcol (by linarith)
      (hX2.trans (p_le (by norm_num))) rfl
    obtain ⟨ps, cm, e, q1, q2, qo, q3⟩ := kppDistBy_near (zeroIt := true) hI
      (copies_double hI hbig hcol (fun _ _ => 0) (met := .eucl) (by decide) hrows4) (show 0 < k by omega) hnp hg hnt
      (show g < 4294967296 by omega) hsp
      (L := fun p => procNrow g np p / effThreads nt (procNrow g np p) + procNrow g np p % effThreads nt (procNrow g np p))
      (fun p hp => by
        have := Distr.procNrow_le (g := g) hp
        exact taskRows_length (Distr.procNrow_pos hnp hg) hnt (by omega))
      (W := addsOfJob g np nt) (fun p _ => addsOfJob_width p) (by omega) hc ho.init ho.total
      (u := fun i => (rng.unit (skip rng.unit i (rng.row rng.seed).2)).1) (fun i => hrng.unit _) hf
    have hbl := kppDistBy_blank e fun _ _ => ⟨fun _ => rfl, fun _ => rfl⟩
    have hpick : ∀ c : Fin k, ∃ r, r < g ∧ Copy fin val (cm c) (data r) ∧
        (c.val = 0 → r = (rng.row rng.seed).1) ∧
        (0 < c.val → ∃ d, NearMinTo (metricDist .eucl) ((n + 4 : Nat) * 2 ^ (-52 : Int)) (metricSlack .eucl)
            (fun r j => val (data r j)) g (fun c' => c' < c) (fun c j => val (cm c j)) d ∧
          NearSampled (drawErr (addsOfJob g np nt + (np - 1)) 0 g) (2 ^ (-1073 : Int)) d g
            (val (rng.unit (skip rng.unit (c.val - 1) (rng.row rng.seed).2)).1) r) := by
      intro c
      rcases Nat.eq_zero_or_pos c.val with h | h
      · exact ⟨_, hf, (q3 c).1 h, fun _ => rfl, fun h' => by omega⟩
      · obtain ⟨r, d, w1, w2, w3⟩ := (q3 c).2 h
        exact ⟨r, w3.1, w1, fun h' => by omega, fun _ => ⟨d, w2, w3⟩⟩
    choose rw_ hr_ hv_ hz_ hp_ using hpick
    have e' : kppDistBy (fun i c j x => (o.init i c j).eval x) (fun i x => (o.total i).eval x) true
        (Dist.euclAny sqrt) data g np nt (fun p => effThreads nt (procNrow g np p))
        (fun p => Prune.taskRows (procNrow g np p) nt) sched (rng.row rng.seed).1
        (fun i => (rng.unit (Init.skip rng.unit i (rng.row rng.seed).2)).1)
        (fun _ => ⟨s0.cltrs, fun r => ⟨(s0.slots r).ub, (s0.slots r).assign⟩⟩) = .ok ps := by
      rw [hemp]
      simp only [h3]
      exact e
    have hcs : ∀ p, p < np → (ps p).cltrs = (ps 0).cltrs := fun p hp => by
      apply Clusters.ext
      · rw [q1 p hp, q1 0 hnp]
      · funext c
        rw [(hbl p hp).1, (hbl 0 hnp).1]
      · funext c
        rw [(hbl p hp).2, (hbl 0 hnp).2]
    set procs : Nat → DProc R R k n := fun p => ⟨{ s0 with
        cltrs := (ps p).cltrs
        slots := fun r => { s0.slots r with assign := ((ps p).slots r).assign, ub := ((ps p).slots r).dist }
        counts := (ps p).cltrs.num }, fun _ => 0⟩ with hprocs
    have hmeans : (joinRanks g np procs).cltrs.means = cm := q1 0 hnp
    refine ⟨procs, joinRanks g np procs, fun c => data (rw_ c), e0, by unfold runInitDistPrunedBy; dsimp only; rw [e'],
      rel_join hnp hg fun p hp => ?_, wf, fun c => ?_, ?_, fun c j => ?_, fun c => ⟨fun h => ?_, fun h => ?_⟩⟩
    · rw [hprocs]; dsimp only; rw [hcs p hp]
    · rw [hmeans]; exact hcopy (hr_ c) (hv_ c)
    · rw [hmeans]
      refine join_slots hnp hg (P := fun r s => Prune.StartSlot fin val (fun x y => √(sqDistance x y))
        ((n + 6 : Nat) * 2 ^ (-52 : Int) * (2 * √n * (X + E))) (2 * (2 * √n * (X + E))) big (data r) cm s)
        fun p l hp hl => ?_
      have hB0 : 0 ≤ 2 * √(n : ℝ) * (X + E) := by positivity
      rcases qo rfl p l hp hl with h | ⟨a, ha, _, ⟨y, hy, hd⟩ | ⟨h0, hv⟩⟩
      · exact Or.inl h
      · have hyb : InBox fin val (X + E) y := hcopy (hr_ a) fun j =>
          ⟨(hy j).1, (hy j).2.trans (hv_ a j).2⟩
        obtain ⟨b1, b2, b3, b4⟩ := hmet.near _ _ (Kmeans.InBox.mono (hrows' _ (off_lt hp hl)) (by linarith)) hyb
        refine Or.inr ⟨a, ha, ?_⟩
        have hd' : ((procs p).core.slots l).ub = Dist.euclAny sqrt (data (off g np p + l)) y := hd
        rw [hd']
        have hval : (fun j => val (y j)) = fun j => val (cm a j) := funext fun j => (hy j).2
        rw [hval] at b4
        exact ⟨b1, b2, b3, b4⟩
      · refine Or.inr ⟨a, ha, ?_⟩
        have hd' : ((procs p).core.slots l).ub = 0 := h0
        rw [hd', hI.zero.2]
        have hz : √(sqDistance (fun j => val (data (off g np p + l) j)) fun j => val (cm a j)) = 0 := by
          simp [sqDistance, hv]
        refine ⟨hI.zero.1, le_rfl, by linarith, ?_⟩
        dsimp only
        rw [hz, sub_zero, abs_zero]
        exact mul_nonneg (gamma_le (m := n + 6) (by omega)).2 hB0
    · rw [hmeans]; exact (hv_ c j).2
    · dsimp only
      rw [hz_ c h, hdata _ hf]
    · obtain ⟨d, w1, w2⟩ := hp_ c h
      refine ⟨rw_ c, d, _, hdata _ (hr_ c), ?_, outputs_get _ _ _ _ (by have := c.isLt; omega), ?_⟩
      · intro q hq
        have := w1 q hq
        dsimp only at this ⊢
        rw [hdata q hq] at this
        have hcm : ∀ c', (fun j => val (cm c' j)) = fun j => val (data (rw_ c') j) := fun c' =>
          funext fun j => (hv_ c' j).2
        simp only [hcm] at this
        exact this
      · have heq : drawErr (addsOfJob g np nt + (np - 1)) 0 g = ((addsOfJob g np nt + np + g + 1 : Nat) : ℝ) * 2 ^ (-52 : Int) := by
          unfold drawErr
          congr 2
          omega
        rw [← heq]
        exact w2

/-! ### The job -/

/-- **C113.**  On IEEE doubles, for every initialisation, every number of processes (at most one per row) and of threads,
all interleavings, all draws of the engine and every order of every reduction, a pruned job with the Euclidean metric and
at least two clusters, on rows and given centres no larger than `X`, never fails, and it returns what it owes: Lloyd's
algorithm on the whole matrix up to errors that grow linearly with the number of iterations, from the start that the
initialisation promises up to rounding.  A job whose option names are not among the documented ones throws, and a job
with one cluster fails an assertion. -/
theorem C113_job [DecidableLT R] [DecidableLE R] (hI : IeeeDouble fin val sqrt abs')
    (hbig : fin big ∧ val big = maxDouble) (cosd : Row R n → Row R n → R) {c : Codec R B} (hc : CodecOk c)
    (rng : Rng R S k) (sched1 sched2 : Nat → Nat → List Nat) (a : Job R B) (o : Orders k n) (ho : o.Ok a.nprocs)
    (m : Nat → Nat → R)
    (given : Option (Nat → Nat → R)) (hk : 0 < k) (hcol : 0 < n) (hcol' : n ≤ 4294967296) (hnp : 0 < a.nprocs)
    (hn : a.nprocs ≤ a.nrow) (hnt : 0 < a.nthreads) (hlt : a.nrow + 8192 < 4294967296)
    (hsz : a.nrow * n * c.size < 9223372036854775808)
    (hst : Stores c a.bytes m a.nrow n) (hgiven : a.centers = given.map fun g => rowsFrom g n 0 k)
    (hrng : RngFin fin val rng a.nrow)
    (hc1 : TaskSchedOk a.nrow a.nprocs a.nthreads sched1) (hc2 : TaskSchedOk a.nrow a.nprocs a.nthreads sched2)
    (hit : a.maxIters * (addsOfJob a.nrow a.nprocs a.nthreads + a.nprocs + 7) ≤ 2 ^ 52)
    (X : ℝ) (hX1 : 2 ^ (-400 : Int) ≤ X) (hX2 : X ≤ 2 ^ (368 : Int))
    (hm : ∀ r j, r < a.nrow → j < n → fin (m r j) ∧ |val (m r j)| ≤ X)
    (hg : ∀ g, given = some g → ∀ r j, r < k → j < n → fin (g r j) ∧ |val (g r j)| ≤ X) :
    ((a.init ∉ ["random", "forgy", "kmeanspp", "none"] ∨ a.dist ∉ ["eucl", "cos", "taxi", "sqeucl"]) →
      kmeansDistPrunedIn o (anyDist sqrt abs' cosd) big c rng sched1 sched2 a = .error .throws) ∧
    ∀ it, getInit a.init = .ok it → a.dist = "eucl" →
      (k = 1 → kmeansDistPrunedIn o (anyDist sqrt abs' cosd) big c rng sched1 sched2 a = .error .assertFail) ∧
      (1 < k → ∃ res, kmeansDistPrunedIn o (anyDist sqrt abs' cosd) big c rng sched1 sched2 a = .ok res ∧
        NearDeliversJobPruned fin val it (matRows m) a.nrow a.nprocs a.nthreads rng (givenCents given) a.tol a.maxIters X
          res) := by
  constructor
  · intro h
    unfold kmeansDistPrunedIn kmeansDistPrunedBy
    by_cases h1 : a.init ∈ ["random", "forgy", "kmeanspp", "none"]
    · obtain ⟨it, e⟩ := (names_ok a.init a.dist).2.2 h1
      rw [e]
      dsimp only
      rw [(names_ok a.init a.dist).2.1 (h.resolve_left fun hh => hh h1)]
    · rw [(names_ok a.init a.dist).1 h1]
  intro it hi hdist
  have hd : getDist a.dist = .ok Dist.Metric.eucl := by rw [hdist]; rfl
  refine ⟨fun h1 => ?_, fun hk1 => ?_⟩
  · obtain ⟨c0, e0, -⟩ := construct_ok (k := k) (n := n) hk it given
    unfold kmeansDistPrunedIn kmeansDistPrunedBy constructPruned DistMatrix.create
    rw [hi]
    dsimp only
    rw [hd]
    dsimp only
    rw [hgiven, e0]
    dsimp only
    rw [if_neg (by omega)]
  obtain ⟨ws, el, hrows⟩ := loadRanks_ok hc m hnp hn hnt hcol (by omega) hsz hst
  have hbox : ∀ r, r < a.nrow → InBox (n := n) fin val X (matRows m r) := fun r hr j => hm r j.val hr j.isLt
  have hgbox : ∀ g, givenCents (k := k) (n := n) given = some g → ∀ c, InBox fin val X (g c) := by
    intro g h c j
    cases given with
    | none => cases h
    | some g' =>
      rw [← Option.some.inj h]
      exact hg g' rfl c.val j.val c.isLt j.isLt
  have hX0 : 0 < X := (p_pos _).trans_le hX1
  have hWl := addsOfJob_le (g := a.nrow) hnp hn hnt
  have hgN : ((a.nrow + 1 : Nat) : ℝ) * X ≤ 2 ^ (400 : Int) := by
    have h1 : ((a.nrow + 1 : Nat) : ℝ) ≤ 2 ^ (32 : Int) := nat_p (by omega)
    have h2 := mul_le_mul h1 hX2 hX0.le (p_pos _).le
    rw [p_mul] at h2
    exact h2.trans (p_le (by norm_num))
  have hsmall : (2 : ℝ) ^ (-1075 : Int) ≤ 2 ^ (-52 : Int) * X := by
    have h1 : (2 : ℝ) ^ (-1075 : Int) ≤ 2 ^ (-52 : Int) * 2 ^ (-400 : Int) := by
      rw [p_mul]; exact p_le (by norm_num)
    exact h1.trans (mul_le_mul_of_nonneg_left hX1 (p_pos (-52)).le)
  have hN1 : (1 : ℝ) ≤ a.nrow := by exact_mod_cast (show 1 ≤ a.nrow by omega)
  have hwX : 0 < (2 : ℝ) ^ (-52 : Int) * X := mul_pos (p_pos _) hX0
  have hcall : ∀ s0 procs res v, constructPruned big it (given.map fun g => rowsFrom g n 0 k) = .ok s0 →
      runInitDistPrunedBy (fun i c j x => (o.init i c j).eval x) (fun i x => (o.total i).eval x)
        (Dist.euclAny sqrt) rng (rowsInRanks ws a.nrow a.nprocs a.nthreads) a.nrow a.nprocs a.nthreads sched1 it s0
        = .ok procs →
      Distr.runPrunedBy (fun i c j x => (o.run i c j).eval x) (Dist.euclAny sqrt) (Dist.euclAny sqrt) big
        (rowsInRanks ws a.nrow a.nprocs a.nthreads) a.nrow a.nprocs a.nthreads a.tol a.maxIters sched2 procs = .ok res →
      Distr.gather a.nrow a.nprocs (fun p r => ((res.procs p).core.slots r).assign) = .ok v →
      kmeansDistPrunedIn o (anyDist sqrt abs' cosd) big c rng sched1 sched2 a =
        .ok ⟨res.iters, v, (res.procs 0).core.counts, (res.procs 0).core.cltrs.means⟩ := by
    intro s0 procs res v e0 es er ev
    unfold kmeansDistPrunedIn kmeansDistPrunedBy
    rw [hi]
    dsimp only
    rw [hd]
    dsimp only
    rw [hgiven, e0]
    dsimp only
    rw [Distr.construct_ok hnp hn]
    dsimp only
    rw [el]
    dsimp only [anyDist]
    rw [es]
    dsimp only
    rw [er]
    dsimp only
    rw [ev]
  rcases Nat.eq_zero_or_pos a.maxIters with h0 | hpos
  · obtain ⟨s0, procs, s, c0, e0, es, hrel, -, hb, -, hv, hstart⟩ := runInitDistPrunedBy_near hI hbig rng
      (rowsInRanks ws a.nrow a.nprocs a.nthreads) (matRows m) a.nrow a.nprocs a.nthreads hrows hk1 hnp hn hnt hlt hcol
      hcol' hX1 (E := ((a.nrow + 1 : Nat) : ℝ) * 2 ^ (-52 : Int) * X + 2 ^ (-1075 : Int)) (by
        refine le_trans ?_ hgN
        have e : ((a.nrow + 1 : Nat) : ℝ) * 2 ^ (-52 : Int) * X = ((a.nrow + 1 : Nat) : ℝ) * (2 ^ (-52 : Int) * X) := by ring
        have h2 : (2 : ℝ) ^ (-52 : Int) * X ≤ X / 4 := by
          have : (2 : ℝ) ^ (-52 : Int) ≤ 1 / 4 := by norm_num
          have := mul_le_mul_of_nonneg_right this hX0.le
          linarith
        rw [e]
        have h3 : (((a.nrow + 1 : Nat) : ℝ)) * (2 ^ (-52 : Int) * X) ≤ ((a.nrow + 1 : Nat) : ℝ) * (X / 4) :=
          mul_le_mul_of_nonneg_left h2 (Nat.cast_nonneg _)
        push_cast at h3 ⊢
        generalize (2 : ℝ) ^ (-52 : Int) * X = w at *
        generalize (2 : ℝ) ^ (-1075 : Int) = w' at *
        have h4 : 1 * X ≤ (a.nrow : ℝ) * X := mul_le_mul_of_nonneg_right hN1 hX0.le
        generalize (a.nrow : ℝ) = N at *
        nlinarith only [h3, h4, h2, hsmall, hX0])
      le_rfl hbox hrng ho sched1 hc1 it given hgbox
    obtain ⟨v, ev, _⟩ := Distr.gather_eq (g := a.nrow) hnp (fun p r => ((procs p).core.slots r).assign)
    refine ⟨_, hcall s0 procs ⟨0, procs⟩ v e0 es ?_ ev, c0, hstart, fun _ => ⟨rfl, fun c j => ?_⟩, fun h => by omega⟩
    · unfold Distr.runPrunedBy
      rw [Distr.construct_ok hnp hn, h0]
      rfl
    · dsimp only
      rw [hrel.cltrs 0 hnp]
      exact ⟨(hb c j).1, hv c j⟩
  · set W := addsOfJob a.nrow a.nprocs a.nthreads with hW
    have hηG : pErr a.nrow a.nprocs W a.maxIters X ≤ a.nrow * X := by
      have h1 : ((a.maxIters * (W + a.nprocs + 7) : Nat) : ℝ) ≤ ((2 ^ 52 : Nat) : ℝ) := by exact_mod_cast hit
      have h2 := mul_le_mul_of_nonneg_right h1 (p_pos (-52)).le
      have h3 : ((2 ^ 52 : Nat) : ℝ) * 2 ^ (-52 : Int) = 1 := by norm_num
      rw [h3] at h2
      have h4 := mul_le_mul_of_nonneg_right h2 (show (0 : ℝ) ≤ a.nrow * X by positivity)
      unfold pErr
      push_cast at h4 ⊢
      linarith
    have hE : ((a.nrow + 1 : Nat) : ℝ) * 2 ^ (-52 : Int) * X + 2 ^ (-1075 : Int) ≤
        pErr a.nrow a.nprocs W a.maxIters X := by
      unfold pErr
      have h1 : (3 : ℝ) ≤ (a.maxIters : ℝ) * ((W + a.nprocs + 7 : Nat) : ℝ) := by
        have : 3 ≤ a.maxIters * (W + a.nprocs + 7) := le_trans (by omega) (Nat.le_mul_of_pos_left _ hpos)
        exact_mod_cast this
      have e : (a.maxIters : ℝ) * (((W + a.nprocs + 7 : Nat) : ℝ) * 2 ^ (-52 : Int) * (a.nrow * X)) =
          (a.maxIters : ℝ) * ((W + a.nprocs + 7 : Nat) : ℝ) * (a.nrow * (2 ^ (-52 : Int) * X)) := by ring
      rw [e]
      have h2 := mul_le_mul_of_nonneg_right h1 (show (0 : ℝ) ≤ a.nrow * (2 ^ (-52 : Int) * X) by positivity)
      refine le_trans ?_ h2
      have h3 : 1 * ((2 : ℝ) ^ (-52 : Int) * X) ≤ (a.nrow : ℝ) * (2 ^ (-52 : Int) * X) :=
        mul_le_mul_of_nonneg_right hN1 hwX.le
      have e2 : ((a.nrow + 1 : Nat) : ℝ) * 2 ^ (-52 : Int) * X =
        (a.nrow : ℝ) * (2 ^ (-52 : Int) * X) + 2 ^ (-52 : Int) * X := by push_cast; ring
      rw [e2]
      generalize (a.nrow : ℝ) * (2 ^ (-52 : Int) * X) = w at *
      generalize (2 : ℝ) ^ (-52 : Int) * X = w2 at *
      generalize (2 : ℝ) ^ (-1075 : Int) = w' at *
      linarith
    obtain ⟨s0, procs, s, c0, e0, es, hrel, hwf, hb, hrow, hv, hstart⟩ := runInitDistPrunedBy_near hI hbig rng
      (rowsInRanks ws a.nrow a.nprocs a.nthreads) (matRows m) a.nrow a.nprocs a.nthreads hrows hk1 hnp hn hnt hlt hcol
      hcol' hX1 (E := pErr a.nrow a.nprocs W a.maxIters X) (by
        refine le_trans ?_ hgN
        push_cast
        linarith)
      hE hbox hrng ho sched1 hc1 it given hgbox
    have hin : PrunedInput fin val big (rowsInRanks (n := n) ws a.nrow a.nprocs a.nthreads) a.nrow a.nprocs a.nthreads
        W a.maxIters X (fun (_ : Fin k) (_ : Fin n) => (0 : R)) :=
      ⟨hk1, hnp, hn, hnt, hlt, hcol, hcol', fun p _ => addsOfJob_width p, by omega, hpos, hit, hbig, hX1, hX2,
        fun r hr => by rw [hrows r hr]; exact hbox r hr, fun _ _ => by
        rw [hI.zero.2, abs_zero]; exact ⟨hI.zero.1, hX0.le⟩⟩
    obtain ⟨res, v, er, ev, h⟩ := runPrunedBy_double hI a.tol a.maxIters X sched2 hin hc2 o.run ho.run procs hb s hrel hwf
      rfl hrow
    refine ⟨_, hcall s0 procs res v e0 es er ev, c0, hstart, fun h => by omega, fun _ => ?_⟩
    exact job_data le_rfl hnp hrows hv h

omit [Add R] [Sub R] [Mul R] [IntCast R] [LT R] in
/-- **C113, separated data.**  If the exact iterations from that start are separated by more than the errors, the pruned
job returns exactly the clusters of Lloyd's algorithm, whatever the order of the reductions is; its centroids are within
`err`. -/
theorem C113_separated [DecidableLE R] {it : InitT}
    {data : Nat → Fin n → R} {N np nt : Nat} {rng : Rng R S k} {given : Option (Fin k → Fin n → R)} {tol : R}
    {maxIters : Nat} {X : ℝ} {res : JobResult R k n}
    (h : NearDeliversJobPruned fin val it data N np nt rng given tol maxIters X res) (hm : 0 < maxIters)
    (hX0 : 0 ≤ X) (hX : ∀ r, r < N → ∀ j, |val (data r j)| ≤ X)
    (err errD : ℝ) (herr : err = (maxIters : ℝ) * ((addsOfJob N np nt + np + 7 : Nat) * 2 ^ (-52 : Int) * (N * X)))
    (herrD : errD = ((maxIters + 3 : Nat) : ℝ) * ((n + 8 : Nat) * 2 ^ (-52 : Int) * (2 * √n * (X + err)))) :
    ∃ c0, NearStartsAt fin val it (metricDist .eucl) ((n + 4 : Nat) * 2 ^ (-52 : Int)) (metricSlack .eucl)
        ((N / np + N % np + np : Nat) * 2 ^ (-52 : Int)) (2 ^ (-1075 : Int))
        ((addsOfJob N np nt + np + N + 1 : Nat) * 2 ^ (-52 : Int)) (2 ^ (-1073 : Int)) data N rng given c0 ∧
      ∀ tr, LloydTrace (metricDist .eucl) N (fun r j => val (data r j)) (fun c j => val (c0 c j)) tr →
        (∀ i, i < maxIters → Separated (metricDist .eucl) 0 errD (√n * err) N (fun r j => val (data r j)) (tr i)
          (tr (i + 1))) →
        SameClustersJob val err N 1 tol maxIters tr res.iters res.assign (fun _ => res.sizes) (fun _ => res.means) := by
  obtain ⟨c0, h1, _, h3⟩ := h
  have hη0 : 0 ≤ err := by
    have := p_pos (-52)
    rw [herr]
    positivity
  refine ⟨c0, h1, fun tr hl hs => ?_⟩
  have h3' := h3 hm
  rw [← herr, ← herrD] at h3'
  have h := C101_near_is_lloyd (Λ := √n * err) (X := X) zero_le_one le_rfl le_rfl hη0 hX0 hX
    (by
      intro x y y' h
      rw [zero_mul, zero_add] at h
      exact eucl_lip h) h3' tr hl hs
  rw [zero_mul, zero_add] at h
  exact h

/-! ### The program -/

/-- With reductions in rank order this is the program of C86. -/
theorem C113_knord_rank_order [DecidableLT R] [DecidableLE R] (dist : Dist.Metric → Row R n → Row R n → R) (big : R)
    (c : Codec R B) (rng : Rng R S k) (sched1 sched2 : Nat → Nat → List Nat) (datafn : List B) (opts : List (StartOpt B))
    (nrow nprocs maxIters nthreads : Nat) (tol : R) (distType : String) :
    knordFullWith (fun a => kmeansDistPrunedBy (fun _ _ _ x => allreduce a.nprocs x) (fun _ x => allreduce a.nprocs x)
      (fun _ _ _ x => allreduce a.nprocs x) dist big c rng sched1 sched2 a) c datafn opts nrow nprocs maxIters nthreads tol
      distType = knord false dist big c rng sched1 sched2 datafn opts nrow nprocs maxIters nthreads tol distType := by
  have h := funext (C113_rank_order dist big c rng sched1 sched2)
  rw [h]
  unfold knordFullWith knord knordWith
  cases startOptions opts "kmeanspp" none with
  | error e => rfl
  | ok p =>
    obtain ⟨i, f⟩ := p
    dsimp only
    split
    · rfl
    · split
      · rfl
      · cases f with
        | none => rfl
        | some f =>
          dsimp only
          cases (BinIo.openRead f k n).read c <;> rfl

/-- **C113, the program.**  What `knord` without `-P` does on doubles: it refuses a file of centres that does not exist,
`none` without a file of centres, and a data file whose size does not fit; otherwise the last of the options `-t` and `-C`
names the initialisation, and with `-d eucl` and at least two clusters the program returns what the pruned job owes. -/
theorem C113_knord [DecidableLT R] [DecidableLE R] (hI : IeeeDouble fin val sqrt abs')
    (hbig : fin big ∧ val big = maxDouble) (cosd : Row R n → Row R n → R) {c : Codec R B} (hc : CodecOk c)
    (rng : Rng R S k) (sched1 sched2 : Nat → Nat → List Nat) (o : Orders k n)
    (datafn : List B) (opts : List (StartOpt B)) (nrow nprocs maxIters nthreads : Nat) (tol : R)
    (distType : String) (ho : o.Ok nprocs) (hk : 0 < k) (hcol : 0 < n) (hcol' : n ≤ 4294967296) (hnp : 0 < nprocs)
    (hn : nprocs ≤ nrow) (hnt : 0 < nthreads) (hlt : nrow + 8192 < 4294967296)
    (hsz : nrow * n * c.size < 9223372036854775808) (hszk : k * n * c.size < 18446744073709551616)
    (hrng : RngFin fin val rng nrow)
    (hc1 : TaskSchedOk nrow nprocs nthreads sched1) (hc2 : TaskSchedOk nrow nprocs nthreads sched2)
    (hit : maxIters * (addsOfJob nrow nprocs nthreads + nprocs + 7) ≤ 2 ^ 52)
    (X : ℝ) (hX1 : 2 ^ (-400 : Int) ≤ X) (hX2 : X ≤ 2 ^ (368 : Int)) :
    let prog := knordFullWith (n := n) (kmeansDistPrunedIn o (anyDist sqrt abs' cosd) big c rng sched1 sched2) c datafn
      opts nrow nprocs maxIters nthreads tol distType
    ((none ∈ centerFiles opts ∨ centerFiles opts = [] ∧ lastInit opts = "none") → prog = .error .assertFail) ∧
    (none ∉ centerFiles opts → ¬ (centerFiles opts = [] ∧ lastInit opts = "none") →
      datafn.length ≠ nrow * n * c.size → prog = .error .throws) ∧
    ∀ (m : Nat → Nat → R) (given : Option (Nat → Nat → R)) it,
      Stores c datafn m nrow n → none ∉ centerFiles opts →
      (centerFiles opts).getLast? = given.map (fun g => some ((rowsFrom g n 0 k).flatMap c.enc)) →
      (∀ r j, r < nrow → j < n → fin (m r j) ∧ |val (m r j)| ≤ X) →
      (∀ g, given = some g → ∀ r j, r < k → j < n → fin (g r j) ∧ |val (g r j)| ≤ X) →
      getInit (lastInit opts) = .ok it → (it = .none → given.isSome) → distType = "eucl" →
      (k = 1 → prog = .error .assertFail) ∧
      (1 < k → ∃ res, prog = .ok res ∧
        NearDeliversJobPruned fin val it (matRows m) nrow nprocs nthreads rng (givenCents given) tol maxIters X res) := by
  have hu : u64 (u64 (c.size * nrow) * n) = nrow * n * c.size := by
    have h0 : c.size * nrow * n = nrow * n * c.size := by ring
    rw [u64_mul (by omega), h0]
  have hopt : none ∉ centerFiles opts → startOptions opts "kmeanspp" none =
      .ok (lastInit opts, ((centerFiles opts).getLast?).getD none) := fun h => by
    rw [(startOptions_ok opts _ _).2 h]
    by_cases hl : opts = []
    · subst hl
      rfl
    · rw [if_neg hl]
  dsimp only
  refine ⟨?_, ?_, ?_⟩
  · intro h
    unfold knordFullWith
    by_cases hx : none ∈ centerFiles opts
    · rw [(startOptions_ok opts _ _).1 hx]
    · obtain ⟨e1, e2⟩ := h.resolve_left hx
      rw [hopt hx]
      simp [e1, e2]
  · intro hx h hne
    unfold knordFullWith
    rw [hopt hx]
    dsimp only
    rw [if_neg, if_pos (by rw [hu]; exact hne)]
    rintro ⟨h2, h3⟩
    refine h ⟨?_, h2⟩
    by_contra hcf
    rw [List.getLast?_eq_getLast_of_ne_nil hcf] at h3
    have hmem := List.getLast_mem hcf
    cases e : (centerFiles opts).getLast hcf with
    | none => rw [e] at hmem; exact hx hmem
    | some b => rw [e] at h3; simp at h3
  · intro m given it hst hx hcf hm hg hi hnone hd
    have hlen : datafn.length = nrow * n * c.size := by
      unfold Stores at hst
      rw [hst, length_enc hc, length_rowsFrom]
    unfold knordFullWith
    rw [hopt hx, hcf]
    dsimp only
    cases given with
    | none =>
      have hne : lastInit opts ≠ "none" := by
        intro he
        rw [he] at hi
        have := hnone (Except.ok.inj hi).symm
        simp at this
      rw [if_neg (by simp [hne]), if_neg (by rw [hu]; simp [hlen])]
      simp only [Option.map_none, Option.getD_none]
      exact (C113_job hI hbig cosd hc rng sched1 sched2
        ⟨datafn, nrow, nprocs, maxIters, nthreads, none, lastInit opts, tol, distType⟩ o ho m none hk hcol hcol' hnp hn hnt
        hlt hsz hst rfl hrng hc1 hc2 hit X hX1 hX2 hm hg).2 it hi hd
    | some g =>
      rw [if_neg (by simp), if_neg (by rw [hu]; simp [hlen])]
      obtain ⟨y, ey⟩ := read_stored (n := n) hc g k (Nat.mul_pos hk hcol) hszk rfl
      simp only [Option.map_some, Option.getD_some]
      rw [ey]
      exact (C113_job hI hbig cosd hc rng sched1 sched2
        ⟨datafn, nrow, nprocs, maxIters, nthreads, some (rowsFrom g n 0 k), lastInit opts, tol, distType⟩ o ho m (some g) hk
        hcol hcol' hnp hn hnt hlt hsz hst rfl hrng hc1 hc2 hit X hX1 hX2 hm hg).2 it hi hd

/-! ### Pruning changes nothing on separated data -/

omit [Add R] [Sub R] [Mul R] [IntCast R] [LT R] in
/-- **C113, pruned and unpruned.**  The pruned job and the unpruned job (C112), each with its own numbers of processes and
threads, from the same given centres on data that is separated by more than the errors of both: they make as many
iterations and return the same assignment and the same sizes, and their centroids differ by the errors only. -/
theorem C113_same_as_unpruned [DecidableLE R] {data : Nat → Fin n → R} {N np nt np' nt' : Nat} {rng rng' : Rng R S k}
    {g : Fin k → Fin n → R} {tol : R} {maxIters : Nat} {X : ℝ} {same : Prop} {res res' : JobResult R k n}
    (h : NearDeliversJobPruned fin val .none data N np nt rng (some g) tol maxIters X res)
    (h' : NearDeliversJob fin val .none .eucl data N np' nt' rng' (some g) tol maxIters same res')
    (hm : 0 < maxIters) (hcol : n ≤ 4294967296) (hnp' : 0 < np') (hn' : np' ≤ N) (hnt' : 0 < nt') (hlt : N < 4294967296)
    (hX0 : 0 ≤ X) (hX : ∀ r, r < N → ∀ j, |val (data r j)| ≤ X)
    (err errD δ : ℝ) (herr : err = (maxIters : ℝ) * ((addsOfJob N np nt + np + 7 : Nat) * 2 ^ (-52 : Int) * (N * X)))
    (herrD : errD = ((maxIters + 3 : Nat) : ℝ) * ((n + 8 : Nat) * 2 ^ (-52 : Int) * (2 * √n * (X + err))))
    (hδ : δ = (addsOfJob N np' nt' + np' : Nat) * 2 ^ (-52 : Int) * X + 2 ^ (-1075 : Int))
    (tr : Nat → Snap ℝ k n)
    (hl : LloydTrace (metricDist .eucl) N (fun r j => val (data r j)) (fun c j => val (g c j)) tr)
    (hs : ∀ i, i < maxIters → Separated (metricDist .eucl) 0 errD (√n * err) N (fun r j => val (data r j)) (tr i)
      (tr (i + 1)))
    (hs' : ∀ i, i < maxIters → Separated (metricDist .eucl) ((n + 4 : Nat) * 2 ^ (-52 : Int)) (metricSlack .eucl) (√n * δ)
      N (fun r j => val (data r j)) (tr i) (tr (i + 1))) :
    res.iters = res'.iters ∧ (∀ r, r < N → res.assign r = res'.assign r) ∧ (∀ c, res.sizes c = res'.sizes c) ∧
      ∀ c j, |val (res.means c j) - val (res'.means c j)| ≤ err + δ := by
  obtain ⟨c0, h1, h2⟩ := C113_separated h hm hX0 hX err errD herr herrD
  obtain ⟨c0', h1', h2'⟩ := C112_separated (.inl rfl) hcol hnp' hn' hnt' hlt h' hm X hX0 hX δ hδ
  have e := h1.1 g rfl
  have e' := h1'.1 g rfl
  subst e
  subst e'
  obtain ⟨q1, q2, q3⟩ := SameClustersJob.agree tol maxIters (h2 tr hl hs) (h2' tr hl (by rw [if_pos rfl]; exact hs'))
  exact ⟨q1, q2, (q3 0 0 one_pos one_pos).1, (q3 0 0 one_pos one_pos).2⟩

/-! ### Jobs that meet the hypotheses -/

theorem box16 : (2 : ℝ) ^ (-400 : Int) ≤ 16 ∧ (16 : ℝ) ≤ 2 ^ (368 : Int) := by
  have h1 : (2 : ℝ) ^ (-400 : Int) ≤ 2 ^ (4 : Int) := p_le (by norm_num)
  have h2 : (2 : ℝ) ^ (4 : Int) ≤ 2 ^ (368 : Int) := p_le (by norm_num)
  exact ⟨h1.trans (by norm_num), le_trans (by norm_num) h2⟩

/-- Every initialisation on the rows 0, 1, 2, 3 in a file, with two processes of two threads. -/
theorem dbl_job_pruned (init : String) (maxIters : Nat) (hmx : maxIters ≤ 1000) (it : InitT) (hi : getInit init = .ok it) :
    ∃ res, kmeansDistPrunedIn demoOrders (anyDist (fun x => Dbl.rnd (√x.v)) (fun x => ⟨|x.v|⟩) fun _ _ => 0) ⟨maxDouble⟩
        (oneCell Dbl) dblRng demoScheds demoScheds
        ⟨[⟨0⟩, ⟨1⟩, ⟨2⟩, ⟨3⟩], 4, 2, maxIters, 2, none, init, ⟨0⟩, "eucl"⟩ = .ok res ∧
      NearDeliversJobPruned Dbl.Fin' Dbl.v it (matRows fun r _ => ⟨(r : ℝ)⟩) 4 2 2 dblRng none ⟨0⟩ maxIters 16 res :=
  ((C113_job (n := 1) Dbl.ieee dbl_input.big (fun _ _ => 0) (oneCell_ok Dbl) dblRng demoScheds demoScheds
    ⟨[⟨0⟩, ⟨1⟩, ⟨2⟩, ⟨3⟩], 4, 2, maxIters, 2, none, init, ⟨0⟩, "eucl"⟩ demoOrders demoOrders_ok (fun r _ => ⟨(r : ℝ)⟩) none
    (by norm_num) (by norm_num) (by norm_num) (by norm_num) (by norm_num) (by norm_num) (by norm_num)
    (by simp [oneCell])
    (by simp [Stores, oneCell, rowsFrom, rowOf, List.range', List.range_succ]) rfl dblRng_fin demoScheds_task
    demoScheds_task
    (by
      have : addsOfJob 4 2 2 = 3 := by decide
      dsimp only
      rw [this]
      omega) 16 box16.1 box16.2
    (fun r j hr _ => ⟨(dbl_small r (by have : r < 4 := hr; omega)).1, by
      have h4 : r ≤ 16 := by have : r < 4 := hr; omega
      have : ((r : Nat) : ℝ) ≤ ((16 : Nat) : ℝ) := by exact_mod_cast h4
      simpa using this⟩) (fun g h => by cases h)).2 it hi rfl).2 (by norm_num)

/-- k-means++, which leaves distances in the upper bounds of the rows. -/
example : ∃ res, kmeansDistPrunedIn demoOrders (anyDist (fun x => Dbl.rnd (√x.v)) (fun x => ⟨|x.v|⟩) fun _ _ => 0)
      ⟨maxDouble⟩ (oneCell Dbl) dblRng demoScheds demoScheds
      ⟨[⟨0⟩, ⟨1⟩, ⟨2⟩, ⟨3⟩], 4, 2, 5, 2, none, "kmeanspp", ⟨0⟩, "eucl"⟩ = .ok res ∧
    NearDeliversJobPruned Dbl.Fin' Dbl.v .plusplus (matRows fun r _ => ⟨(r : ℝ)⟩) 4 2 2 dblRng none ⟨0⟩ 5 16 res :=
  dbl_job_pruned "kmeanspp" 5 (by norm_num) .plusplus rfl

/-- The program without `-P` on the rows 0, 1, 10, 11 with a file of centres 0 and 10, two processes, and the exact
clusters that it returns. -/
example (tol : Dbl) : ∃ res,
    knordFullWith (kmeansDistPrunedIn demoOrders (anyDist (fun x => Dbl.rnd (√x.v)) (fun x => ⟨|x.v|⟩) fun _ _ => 0)
      ⟨maxDouble⟩ (oneCell Dbl) dblRng demoScheds demoScheds) (oneCell Dbl)
      ((rowsFrom (fun r _ => (⟨(sepRow r : ℝ)⟩ : Dbl)) 1 0 4).flatMap (oneCell Dbl).enc)
      [.centers (some ((rowsFrom (fun r _ => (⟨((if r = 0 then 0 else 10 : Nat) : ℝ)⟩ : Dbl)) 1 0 2).flatMap
        (oneCell Dbl).enc))] 4 2 5 2 tol "eucl" = .ok res ∧
    SameClustersJob Dbl.v (pErr 4 2 3 5 16) 4 1 tol 5 sepTrace res.iters
      res.assign (fun _ => res.sizes) (fun _ => res.means) := by
  have h4 : ∀ r, r < 4 → sepRow r ≤ 11 := by
    intro r hr
    have : r = 0 ∨ r = 1 ∨ r = 2 ∨ r = 3 := by omega
    rcases this with rfl | rfl | rfl | rfl <;> decide
  have hle : ∀ r, r < 4 → |((sepRow r : Nat) : ℝ)| ≤ 16 := by
    intro r hr
    have : ((sepRow r : Nat) : ℝ) ≤ ((11 : Nat) : ℝ) := by exact_mod_cast h4 r hr
    rw [abs_of_nonneg (Nat.cast_nonneg _)]
    exact this.trans (by norm_num)
  have hW : addsOfJob 4 2 2 = 3 := by decide
  obtain ⟨res, er, h⟩ := ((C113_knord (k := 2) (n := 1) Dbl.ieee dbl_input.big (fun _ _ => 0) (oneCell_ok Dbl) dblRng
    demoScheds demoScheds demoOrders ((rowsFrom (fun r _ => (⟨(sepRow r : ℝ)⟩ : Dbl)) 1 0 4).flatMap (oneCell Dbl).enc)
      [.centers (some ((rowsFrom (fun r _ => (⟨((if r = 0 then 0 else 10 : Nat) : ℝ)⟩ : Dbl)) 1 0 2).flatMap
        (oneCell Dbl).enc))] 4 2 5 2 tol "eucl" demoOrders_ok
    (by decide) (by decide) (by decide) (by decide) (by decide) (by decide) (by decide) (by decide) (by decide) dblRng_fin
    demoScheds_task demoScheds_task (by rw [hW]; norm_num) 16 box16.1 box16.2).2.2 _
    (some fun r _ => ⟨((if r = 0 then 0 else 10 : Nat) : ℝ)⟩) .none rfl
    (by simp [centerFiles]) rfl
    (fun r j hr _ => ⟨(dbl_small (sepRow r) (by have := h4 r hr; omega)).1, hle r hr⟩)
    (fun g h r j _ _ => by
      rw [← Option.some.inj h]
      refine ⟨(dbl_small _ (by split_ifs <;> norm_num)).1, ?_⟩
      dsimp only
      split_ifs <;> norm_num) rfl (fun _ => rfl) rfl).2 (by norm_num)
  refine ⟨res, er, ?_⟩
  obtain ⟨c0, h1, h2⟩ := C113_separated h (by norm_num) (by norm_num) (fun r hr j => hle r hr) (pErr 4 2 3 5 16)
    (pDist 1 4 2 3 5 16) (by rw [hW]; rfl) rfl
  have e0 := h1.1 _ rfl
  subst e0
  refine h2 sepTrace ?_ fun i _ => sep_separated_pruned i
  have e1 : (fun (c : Fin 2) (_ : Fin 1) => (sepInit.cltrs.means c 0).v) =
      fun c _ => ((if c.val = 0 then 0 else 10 : Nat) : ℝ) := by
    funext c _
    fin_cases c <;> rfl
  have := sep_lloyd
  exact ⟨this.cents.trans e1, this.unassigned, this.step⟩

/-- Whatever a pruned job and an unpruned job owe on these rows from these centres, they return the same clusters. -/
example (tol : Dbl) (res res' : JobResult Dbl 2 1)
    (h : NearDeliversJobPruned Dbl.Fin' Dbl.v .none sepData 4 2 2 dblRng (some sepInit.cltrs.means) tol 5 16 res)
    (h' : NearDeliversJob Dbl.Fin' Dbl.v .none .eucl sepData 4 2 2 dblRng (some sepInit.cltrs.means) tol 5 False res') :
    res.iters = res'.iters ∧ (∀ r, r < 4 → res.assign r = res'.assign r) ∧ ∀ c, res.sizes c = res'.sizes c := by
  have hW : addsOfJob 4 2 2 = 3 := by decide
  obtain ⟨q1, q2, q3, _⟩ := C113_same_as_unpruned h h' (by norm_num) (by norm_num) (by norm_num) (by norm_num)
    (by norm_num) (by norm_num) (by norm_num) (fun r hr j => (sep_pruned.rows r hr j).2) (pErr 4 2 3 5 16)
    (pDist 1 4 2 3 5 16) _ (by rw [hW]; rfl) rfl rfl sepTrace sep_lloyd (fun i _ => sep_separated_pruned i)
    (fun i _ => by
      intro r hr c c' hc hne
      have hd := sep_gap hr hc hne
      have b2 : (2 : ℝ) ^ (-1075 : Int) ≤ 1 / 1000 :=
        (p_le (show (-1075 : Int) ≤ -10 by norm_num)).trans (by norm_num)
      have b3 : (2 : ℝ) ^ (-520 : Int) ≤ 1 / 1000 :=
        (p_le (show (-520 : Int) ≤ -10 by norm_num)).trans (by norm_num)
      have b4 : (2 : ℝ) ^ (-52 : Int) ≤ 1 / 100000 := by norm_num
      have b5 := p_pos (-52)
      rw [hW]
      have hsl : metricSlack .eucl = (2 : ℝ) ^ (-520 : Int) := rfl
      rw [hsl]
      have hd1 : metricDist .eucl (fun j => (sepData r j).v) ((sepTrace i).cents c) ≤ 1 := hd.1
      have hd2 : 9 ≤ metricDist .eucl (fun j => (sepData r j).v) ((sepTrace i).cents c') := hd.2
      have hd0 := metricDist_nonneg .eucl (fun j => (sepData r j).v) ((sepTrace i).cents c)
      generalize metricDist .eucl (fun j => (sepData r j).v) ((sepTrace i).cents c) = x at *
      generalize metricDist .eucl (fun j => (sepData r j).v) ((sepTrace i).cents c') = y at *
      simp only [Nat.cast_one, Real.sqrt_one, one_mul]
      push_cast
      generalize (2 : ℝ) ^ (-52 : Int) = w at *
      generalize (2 : ℝ) ^ (-520 : Int) = w1 at *
      generalize (2 : ℝ) ^ (-1075 : Int) = w2 at *
      nlinarith)
  exact ⟨q1, q2, q3⟩

end Knor.Driver
