import Verif.Lemmas.PrunedDriver
import Verif.Props.Driver
import Verif.Props.Prune
import Verif.Spec.MiniBatch
import Mathlib.Algebra.Order.Field.Rat

/-!
# Property C84: a whole pruned k-means call

`knori` without `-P`, and what the bindings call by default.
-/

namespace Knor.Driver

open Knor Knor.Spec Knor.Io Knor.Partition Knor.Par Knor.Init

variable {R S B : Type _} {k n : Nat}

theorem constructPruned_ok [Zero R] (big : R) (hk : 1 < k) (it : InitT) (given : Option (Nat → Nat → R)) :
    ∃ s0 : Prune.PState R R k n, constructPruned big it (given.map fun g => rowsFrom g n 0 k) = .ok s0 ∧
      construct it (given.map fun g => rowsFrom g n 0 k) = .ok s0.cltrs ∧
      DistMatrix.create big k = .ok s0.dm ∧ (s0.prevMeans = fun _ _ => 0) ∧ s0.changed = 0 ∧
      (∀ r, s0.slots r = ⟨none, big, false⟩) ∧ ∀ c, s0.counts c = 0 := by
  obtain ⟨c0, e0, -⟩ := construct_ok (k := k) (n := n) (by omega) it given
  unfold constructPruned
  rw [e0]
  unfold DistMatrix.create
  rw [if_pos hk]
  exact ⟨_, rfl, rfl, rfl, rfl, rfl, fun _ => rfl, fun _ => rfl⟩

/-- The state after the initialisation. -/
theorem runInitPruned_ok [Field R] [LinearOrder R] [IsStrictOrderedRing R] (dist : Row R n → Row R n → R) (big : R)
    (rng : Rng R S k) (data data' : Nat → Row R n) (N nt : Nat) (hdata : ∀ r, r < N → data r = data' r)
    (hk : 1 < k) (hn : 0 < N) (hnt : 0 < nt) (hlt : N + 8192 < 4294967296) (hrng : RngOk rng N)
    (sched : Nat → List Nat) (hc : ∀ i, Complete (effThreads nt N) (Prune.taskRows N nt) (sched i))
    (it : InitT) (hpp : it = .plusplus → Seedable dist big data' N)
    (given : Option (Nat → Nat → R))
    (hb : it ≠ .plusplus → ∀ c0, StartsAt it dist data' N rng (givenCents given) c0 →
      ∀ r, r < N → ∃ c : Fin k, dist (data' r) (c0 c) < big) :
    ∃ s0 s, constructPruned big it (given.map fun g => rowsFrom g n 0 k) = .ok s0 ∧
      runInitPruned dist big rng data N nt sched it s0 = .ok s ∧
      StartsAt it dist data' N rng (givenCents given) s.cltrs.means ∧ Prune.Started dist data N s ∧
      (∀ c, s.counts c = 0) ∧
      (it = .plusplus → ∀ r, r < N → ∃ c, (s.slots r).assign = some c ∧
        IsNearest (fun c => dist (data' r) (s.cltrs.means c)) c) ∧
      (it ≠ .plusplus → ∀ r, (s.slots r).ub = big) ∧
      StartAssign it dist data' N rng ⟨s.cltrs.means, fun r => (s.slots r).assign⟩ := by
  obtain ⟨s0, e0, ec, em, h1, h2, h3, h4⟩ := constructPruned_ok (k := k) (n := n) big hk it given
  obtain ⟨m', em', wf, -⟩ := DistMatrix.create_wf (big := big) (k := k) hk
  rw [em] at em'
  obtain rfl := Except.ok.inj em'
  obtain ⟨c0, ec', k0, k1⟩ := construct_ok (k := k) (n := n) (by omega) it given
  rw [ec] at ec'
  obtain rfl := Except.ok.inj ec'
  refine ⟨s0, ?_⟩
  cases it with
  | none =>
    have hst : StartsAt .none dist data' N rng (givenCents given) s0.cltrs.means := by
      obtain ⟨w1, w2⟩ := k1 rfl
      refine ⟨fun g hg => ?_, fun hg => w2 (by unfold givenCents at hg; simpa using hg)⟩
      cases given with
      | none => cases hg
      | some g' =>
        rw [← Option.some.inj hg]
        exact w1 g' rfl
    refine ⟨s0, e0, rfl, hst, ⟨wf, h1, h2, fun r hr => .inl ?_⟩, h4, fun h => (by cases h), fun _ r => (by rw [h3]),
      fun r _ => (by dsimp only; rw [h3])⟩
    obtain ⟨c, h⟩ := hb (by decide) _ hst r hr
    exact ⟨c, by rw [h3, hdata r hr]; exact h⟩
  | forgy =>
    obtain ⟨c', e, h⟩ := C27_forgy_picks_rows rng.row rng.seed data N nt hnt (by omega) hrng.row s0.cltrs
    have hst : StartsAt .forgy dist data' N rng (givenCents given) c'.means := fun c => by
      obtain ⟨r, hr, q1, q2⟩ := h c
      exact ⟨r, hr, q1, by rw [← hdata r hr]; exact q2⟩
    refine ⟨{ s0 with cltrs := c' }, e0, ?_, hst, ⟨wf, h1, h2, fun r hr => .inl ?_⟩, h4, fun h => (by cases h),
      fun _ r => (by dsimp only; rw [h3]), fun r _ => (by dsimp only; rw [h3])⟩
    · unfold runInitPruned; dsimp only; rw [e]
    · obtain ⟨c, h⟩ := hb (by decide) _ hst r hr
      exact ⟨c, by dsimp only; rw [h3, hdata r hr]; exact h⟩
  | random =>
    have hemp := k0 (by decide)
    obtain ⟨c', a', e, q1, _, q3⟩ := C28_random_partition rng.clust rng.seed data N nt hnt (by omega)
      (fun r => (s0.slots r).assign)
    have hst : StartsAt .random dist data' N rng (givenCents given) c'.means :=
      ⟨a', q1, fun c j => by rw [← memberMean_data hdata]; exact q3 c j⟩
    refine ⟨{ s0 with cltrs := c', slots := fun r => { s0.slots r with assign := a' r } }, e0, ?_, hst,
      ⟨wf, h1, h2, fun r hr => .inl ?_⟩, h4, fun h => (by cases h), fun _ r => (by dsimp only; rw [h3]), q1⟩
    · unfold runInitPruned; dsimp only; rw [hemp, e]
    · obtain ⟨c, h⟩ := hb (by decide) _ hst r hr
      exact ⟨c, by dsimp only; rw [h3, hdata r hr]; exact h⟩
  | plusplus =>
    have hp := hpp rfl
    have hpos : ∀ q r, q < N → r < N → 0 ≤ dist (data q) (data r) := fun q r hq hr => by
      rw [hdata q hq, hdata r hr]; exact hp.pos q r hq hr
    have hself : ∀ r, r < N → dist (data r) (data r) = 0 := fun r hr => by
      rw [hdata r hr]; exact hp.self r hr
    have hf := hrng.row rng.seed
    have hbig : ∀ r, r < N → dist (data r) (data (rng.row rng.seed).1) < big := fun r hr => by
      rw [hdata r hr, hdata _ hf]; exact hp.lt r _ hr hf
    have hu : ∀ i, 0 ≤ (rng.unit (skip rng.unit i (rng.row rng.seed).2)).1 ∧
        (rng.unit (skip rng.unit i (rng.row rng.seed).2)).1 ≤ 1 := fun i => hrng.unit _
    have hsp := Prune.split_taskRows hn hnt hlt
    obtain ⟨s', e, hok, _⟩ := C29_kmeanspp (k := k) dist big data N nt _ _ hpos hself hsp (by omega) hn hnt (by omega)
      sched hc _ hf _ hu hbig ⟨s0.cltrs, fun r => ⟨(s0.slots r).ub, (s0.slots r).assign⟩⟩
      (fun r _ => by dsimp only; rw [h3])
    refine ⟨{ s0 with
        cltrs := s'.cltrs
        slots := fun r => { s0.slots r with assign := (s'.slots r).assign, ub := (s'.slots r).dist } },
      e0, ?_, fun c => ?_, ⟨wf, h1, h2, fun r hr => .inr ?_⟩, h4, fun _ r hr => ?_, fun h => absurd rfl h,
      fun r hr => ?_⟩
    · unfold runInitPruned; dsimp only; rw [e]
    · obtain ⟨q1, q2⟩ := C29_weighted_choice dist big data N nt _ _ hpos hself hsp hn hnt (by omega) sched hc _ hf _ hu
        hbig ⟨s0.cltrs, fun r => ⟨(s0.slots r).ub, (s0.slots r).assign⟩⟩ s'
        (fun r _ => by dsimp only; rw [h3]) e c
      refine ⟨fun h => by rw [← hdata _ hf]; exact q1 h, fun h => ?_⟩
      obtain ⟨r, d, w1, w2, w3⟩ := q2 h
      refine ⟨r, d, _, ?_, minTo_data hdata w2, outputs_get _ _ _ _ (by have := c.isLt; omega), w3⟩
      rw [← hdata r w3.1]; exact w1
    · obtain ⟨c, w1, w2, _⟩ := hok.nearest r hr
      exact ⟨c, w1, w2⟩
    · obtain ⟨c, w1, _, w3⟩ := hok.nearest r hr
      exact ⟨c, w1, by rw [← hdata r hr]; exact w3⟩
    · obtain ⟨c, w1, _, w3⟩ := hok.nearest r hr
      exact ⟨c, w1, by rw [← hdata r hr]; exact w3⟩

theorem tally_ok (slots : Nat → Prune.Slot R k) (l : List Nat) (h : ∀ r ∈ l, ∃ c, (slots r).assign = some c)
    (counts : Fin k → Int) : ∃ out, tally slots l counts = .ok out ∧
      ∀ c, out c = counts c + ((l.filter fun r => (slots r).assign = some c).length : Int) := by
  induction l generalizing counts with
  | nil => exact ⟨counts, rfl, fun c => by simp⟩
  | cons r l ih =>
    obtain ⟨c, hc⟩ := h r (by simp)
    obtain ⟨out, e, ho⟩ := ih (fun r hr => h r (by simp [hr])) (Function.update counts c (counts c + 1))
    refine ⟨out, by unfold tally; rw [hc]; exact e, fun c' => ?_⟩
    rw [ho, List.filter_cons, hc]
    by_cases hcc : c' = c
    · subst hcc
      simp
      ring
    · rw [Function.update_of_ne hcc, if_neg (by simpa using fun h => hcc h.symm)]

theorem filter_range_count (N : Nat) (a : Nat → Option (Fin k)) (c : Fin k) :
    ((List.range N).filter fun r => a r = some c).length = Spec.count N a c := by
  unfold Spec.count
  induction N with
  | zero => rfl
  | succ N ih =>
    rw [List.range_succ, List.filter_append, List.length_append, ih, Finset.range_add_one, Finset.filter_insert]
    by_cases h : a N = some c
    · rw [if_pos h, Finset.card_insert_of_notMem (by simp)]
      simp [h]
    · rw [if_neg h]
      simp [h]

theorem started_data [Field R] [LinearOrder R] {dist : Row R n → Row R n → R} {N : Nat}
    {data data' : Nat → Row R n} (h : ∀ r, r < N → data r = data' r) {s : Prune.PState R R k n}
    (hs : Prune.Started dist data N s) : Prune.Started dist data' N s :=
  ⟨hs.wf, hs.prev, hs.changed, fun r hr => by rw [← h r hr]; exact hs.rows r hr⟩

/-- **C84, what holds for every metric.**  Unknown names throw; with one cluster the call fails an assertion.
Every other call on an `nrow × n` matrix, in a file or in an array, returns.  If an iteration is allowed, the result
is a partition of the rows with its sizes and its means; with exactly one iteration every row is at a nearest of the
centroids that the named initialisation promises; with none, these centroids are returned, and for k-means++ the
nearest one of every row, with the sizes of this partition.  This for any number of threads, any interleavings and
any draws of the engine.  What is missing is the claim that pruning does not change the outcome; it is false
(`C84_violated`). -/
theorem C84_call_partial [Field R] [LinearOrder R] [IsStrictOrderedRing R]
    (dist : Dist.Metric → Row R n → Row R n → R) (big : R) {c : Codec R B} (hc : CodecOk c) (rng : Rng R S k)
    (sched1 sched2 : Nat → List Nat) (a : Call R B) (m : Nat → Nat → R) (given : Option (Nat → Nat → R))
    (hk : 0 < k) (hcol : 0 < n) (hn : 0 < a.nrow) (hnt : 0 < a.nthreads) (hlt : a.nrow + 8192 < 4294967296)
    (hsz : a.nrow * n * c.size < 9223372036854775808) (hst : Holds c a.source m a.nrow n)
    (hgiven : a.centers = given.map fun g => rowsFrom g n 0 k) (hrng : RngOk rng a.nrow)
    (hc1 : ∀ i, Complete (effThreads a.nthreads a.nrow) (Prune.taskRows a.nrow a.nthreads) (sched1 i))
    (hc2 : ∀ i, Complete (effThreads a.nthreads a.nrow) (Prune.taskRows a.nrow a.nthreads) (sched2 i)) :
    ((a.init ∉ ["random", "forgy", "kmeanspp", "none"] ∨ a.dist ∉ ["eucl", "cos", "taxi", "sqeucl"]) →
      kmeansPruned dist big c rng sched1 sched2 a = .error .throws) ∧
    ∀ it met, getInit a.init = .ok it → getDist a.dist = .ok met →
      (k = 1 → kmeansPruned dist big c rng sched1 sched2 a = .error .assertFail) ∧
      (1 < k → (it = .plusplus → Seedable (dist met) big (matRows m) a.nrow) →
      (it ≠ .plusplus → ∀ c0, StartsAt it (dist met) (matRows m) a.nrow rng (givenCents given) c0 →
        ∀ r, r < a.nrow → ∃ c, dist met (matRows m r) (c0 c) < big) →
      ∃ res c0, kmeansPruned dist big c rng sched1 sched2 a = .ok res ∧
        StartsAt it (dist met) (matRows m) a.nrow rng (givenCents given) c0 ∧
        (0 < a.maxIters → IsPartition a.nrow (matRows m) res) ∧
        (a.maxIters = 1 → ∀ r, r < a.nrow → ∃ c, (res.state.slots r).assign = some c ∧
          IsNearest (fun c => dist met (matRows m r) (c0 c)) c) ∧
        (a.maxIters = 0 → res.iters = 0 ∧ res.state.cltrs.means = c0 ∧
          (it = .plusplus → (∀ r, r < a.nrow → ∃ c, (res.state.slots r).assign = some c ∧
            IsNearest (fun c => dist met (matRows m r) (c0 c)) c) ∧
            ∀ c, res.state.counts c = (Spec.count a.nrow (fun r => (res.state.slots r).assign) c : Int))) ∧
        (0 < a.maxIters → met = .eucl → (∀ x y, dist .eucl x y = dist .eucl y x) →
          (∀ x y z, dist .eucl x z ≤ dist .eucl x y + dist .eucl y z) →
          SmallFirstMoves (dist .eucl) a.nrow (matRows m) c0 →
          LloydResultAnyTie (dist .eucl) a.nrow (matRows m) c0 a.tol a.maxIters res)) := by
  constructor
  · intro h
    have hthrow : ∀ s : String, s ∉ ["eucl", "cos", "taxi", "sqeucl"] → getDist s = .error .throws := by
      intro s hs
      simp only [List.mem_cons, List.not_mem_nil, or_false, not_or] at hs
      simp [getDist, hs]
    have hthrow' : ∀ s : String, s ∉ ["random", "forgy", "kmeanspp", "none"] → getInit s = .error .throws := by
      intro s hs
      simp only [List.mem_cons, List.not_mem_nil, or_false, not_or] at hs
      simp [getInit, hs]
    unfold kmeansPruned
    by_cases h1 : a.init ∈ ["random", "forgy", "kmeanspp", "none"]
    · have h2 := h.resolve_left fun hh => hh h1
      cases hi : getInit a.init with
      | error e =>
        exfalso
        simp only [List.mem_cons, List.not_mem_nil, or_false] at h1
        rcases h1 with h1 | h1 | h1 | h1 <;> (rw [h1] at hi; cases hi)
      | ok it => dsimp only; rw [hthrow _ h2]
    · rw [hthrow' _ h1]
  intro it met hi hm
  refine ⟨fun h1 => ?_, fun hk1 hpp hb => ?_⟩
  · obtain ⟨c0, e0, -⟩ := construct_ok (k := k) (n := n) hk it given
    unfold kmeansPruned constructPruned DistMatrix.create
    rw [hi]
    dsimp only
    rw [hm]
    dsimp only
    rw [hgiven, e0]
    dsimp only
    rw [if_neg (by omega)]
  obtain ⟨ws, el, hrows⟩ := load_ok hc m a hn hnt hcol (by omega) hsz hst
  have hrows' : ∀ r, r < a.nrow → matRows m r = rowsIn (n := n) ws a.nrow a.nthreads r := fun r hr => (hrows r hr).symm
  obtain ⟨s0, s, e0, es, hstart, hsd, hz, hkp, -⟩ := runInitPruned_ok (dist met) big rng (rowsIn ws a.nrow a.nthreads)
    (matRows m) a.nrow a.nthreads hrows hk1 hn hnt hlt hrng sched1 hc1 it hpp given hb
  have hcall : ∀ res, Prune.run (dist met) (dist .eucl) big (rowsIn ws a.nrow a.nthreads) a.nrow a.nthreads a.tol
      a.maxIters sched2 s = .ok res → kmeansPruned dist big c rng sched1 sched2 a =
        finish it a.nrow res := by
    intro res er
    unfold kmeansPruned
    rw [hi]
    dsimp only
    rw [hm]
    dsimp only
    rw [hgiven, e0]
    dsimp only
    rw [el]
    dsimp only
    rw [es]
    dsimp only
    rw [er]
  by_cases hmx : 0 < a.maxIters
  · obtain ⟨res, er, hpart, hit⟩ := Prune.run_partition (eucl := dist .eucl) (big := big) (tol := a.tol) (sched := sched2)
      hk1 hn hnt hlt hc2 hsd hmx
    refine ⟨res, s.cltrs.means, ?_, hstart, fun _ => Prune.partition_data hrows hpart, ?_, fun h => by omega, ?_⟩
    · rw [hcall res er]
      exact if_neg (by rintro ⟨h, -⟩; omega)
    · intro h1
      obtain ⟨res', er', hnear⟩ := Prune.run_one (eucl := dist .eucl) (big := big) (tol := a.tol) (sched := sched2)
        hn hnt hlt hc2 hsd
      rw [h1] at er
      rw [er] at er'
      obtain rfl := Except.ok.inj er'
      intro r hr
      obtain ⟨c, q1, q2⟩ := hnear r hr
      exact ⟨c, q1, by rw [← hrows r hr]; exact q2⟩
    · rintro _ rfl hsym htri hmv
      obtain ⟨res', er', h⟩ := Prune.run_lloyd (big := big) (tol := a.tol) (sched := sched2)
        hk1 hsym htri hn hnt hlt hc2 hsd hmx (fun tr htr => hmv tr (Prune.anyTie_data hrows htr))
      rw [er] at er'
      obtain rfl := Except.ok.inj er'
      exact Prune.lloydResult_data hrows h
  · have h0 : a.maxIters = 0 := by omega
    have er : Prune.run (dist met) (dist .eucl) big (rowsIn ws a.nrow a.nthreads) a.nrow a.nthreads a.tol
        a.maxIters sched2 s = .ok ⟨0, false, { s with changed := 0 }⟩ := by
      unfold Prune.run
      rw [if_neg hmx]
    by_cases hit : it = .plusplus
    · have hk' := hkp hit
      obtain ⟨out, et, ho⟩ := tally_ok s.slots (List.range a.nrow) (fun r hr => by
        obtain ⟨c, h, _⟩ := hk' r (List.mem_range.1 hr)
        exact ⟨c, h⟩) s.counts
      refine ⟨⟨0, false, { s with changed := 0, counts := out }⟩, s.cltrs.means, ?_, hstart, fun h => by omega,
        fun h => by omega, fun _ => ⟨rfl, rfl, fun _ => ⟨hk', fun c => ?_⟩⟩, fun h => by omega⟩
      · rw [hcall _ er]
        unfold finish
        rw [if_pos ⟨rfl, hit⟩]
        dsimp only
        rw [et]
      · dsimp only
        rw [ho, hz, zero_add, filter_range_count a.nrow (fun r => (s.slots r).assign) c]
    · refine ⟨⟨0, false, { s with changed := 0 }⟩, s.cltrs.means, ?_, hstart, fun h => by omega,
        fun h => by omega, fun _ => ⟨rfl, rfl, fun h => absurd h hit⟩, fun h => by omega⟩
      rw [hcall _ er]
      exact if_neg (by rintro ⟨-, h⟩; exact hit h)

/-! ### Agreement with the unpruned call -/

/-- The initialisation determines the first centroids. -/
theorem startsAt_unique [Field R] [LinearOrder R] {it : InitT} {dist : Row R n → Row R n → R}
    {data : Nat → Row R n} {N : Nat} {rng : Rng R S k} {given : Option (Fin k → Row R n)} {c0 c0' : Fin k → Row R n}
    (h : StartsAt it dist data N rng given c0) (h' : StartsAt it dist data N rng given c0') : c0 = c0' := by
  cases it with
  | none =>
    cases hg : given with
    | none =>
      funext c j
      rw [h.2 hg c j, h'.2 hg c j]
    | some g => rw [h.1 g hg, h'.1 g hg]
  | forgy =>
    funext c
    obtain ⟨r, _, e1, e2⟩ := h c
    obtain ⟨r', _, e1', e2'⟩ := h' c
    rw [e1] at e1'
    rw [e2, e2', Option.some.inj e1']
  | random =>
    obtain ⟨a, ha, hc⟩ := h
    obtain ⟨a', ha', hc'⟩ := h'
    funext c j
    rw [hc, hc']
    refine Kmeans.memberMean_congr' (fun r hr => ?_) c j
    obtain ⟨x, e1, e2⟩ := ha r hr
    obtain ⟨x', e1', e2'⟩ := ha' r hr
    rw [e2] at e2'
    rw [e1, e1', Option.some.inj e2']
  | plusplus =>
    have key : ∀ i (c : Fin k), c.val = i → c0 c = c0' c := by
      intro i
      induction i using Nat.strong_induction_on with
      | _ i ih =>
        intro c hci
        obtain ⟨h1, h2⟩ := h c
        obtain ⟨h1', h2'⟩ := h' c
        rcases Nat.eq_zero_or_pos c.val with h0 | h0
        · rw [h1 h0, h1' h0]
        · obtain ⟨r, d, u, e, hd, hu, hs⟩ := h2 h0
          obtain ⟨r', d', u', e', hd', hu', hs'⟩ := h2' h0
          rw [hu] at hu'
          obtain rfl := Option.some.inj hu'
          have hdd : ∀ q, q < N → d q = d' q := by
            intro q hq
            obtain ⟨⟨x, hx, ex⟩, hmin⟩ := hd q hq
            obtain ⟨⟨x', hx', ex'⟩, hmin'⟩ := hd' q hq
            have same : ∀ y, y < c → c0 y = c0' y := fun y hy => ih y.val (by rw [← hci]; exact hy) y rfl
            refine le_antisymm ?_ ?_
            · rw [ex', ← same x' hx']
              exact hmin x' hx'
            · rw [ex, same x hx]
              exact hmin' x hx
          have hsum : ∀ m, m ≤ N → ∑ q ∈ Finset.range m, d q = ∑ q ∈ Finset.range m, d' q := fun m hm =>
            Finset.sum_congr rfl fun q hq => hdd q (by have := Finset.mem_range.1 hq; omega)
          have hrr : r = r' := by
            rcases lt_trichotomy r r' with hlt | heq | hgt
            · have a1 := hs.2.1
              have a2 := hs'.2.2 r hlt
              rw [hsum N (le_refl _), hsum (r + 1) hs.1] at a1
              exact absurd a1 (not_le.2 a2)
            · exact heq
            · have a1 := hs'.2.1
              have a2 := hs.2.2 r' hgt
              rw [hsum N (le_refl _), hsum (r' + 1) hs'.1] at a2
              exact absurd a1 (not_le.2 a2)
          rw [e, e', hrr]
    exact funext fun c => key _ c rfl

/-- Two descriptions of the same run. -/
theorem same_result [Field R] [LinearOrder R] [IsStrictOrderedRing R] {dist : Row R n → Row R n → R} {N : Nat}
    {data : Nat → Row R n} {c0 : Fin k → Row R n} {tol : R} {maxIters : Nat} {tr : Nat → Snap R k n}
    {res : Prune.Result R R k n} {res' : Kmeans.Result R k n} (hN : 0 < N) (htol : tol < 1)
    (ht : LloydTrace dist N data c0 tr) (hnt : NoTies dist N data tr)
    (h : LloydResultAnyTie dist N data c0 tol maxIters res) (h' : LloydResult N tol maxIters tr res') :
    res.iters = res'.iters ∧ (∀ r, r < N → (res.state.slots r).assign = res'.state.assign r) ∧
      res.state.cltrs.means = res'.state.cltrs.means ∧ res.state.counts = res'.state.counts := by
  obtain ⟨m, tr', h1, h2, h3, h4, h5, h6, h7, h8⟩ := h
  have huni := Prune.anyTie_unique ht hnt h3
  have hstop : ∀ j, 1 ≤ j → j ≤ m → (StopsAt N tol tr' j ↔ StopsAt N tol tr j) := by
    intro j hj1 hj2
    unfold StopsAt
    rw [Kmeans.numChanged_congr (fun r hr => (huni (j - 1) (by omega)).2 r hr) (fun r hr => (huni j hj2).2 r hr)]
  have hfirst : ¬ StopsAt N tol tr 1 := by
    have hall : numChanged N (tr 0).assign (tr 1).assign = N := by
      unfold numChanged
      rw [Finset.filter_true_of_mem, Finset.card_range]
      intro r hr
      obtain ⟨c, e, _⟩ := (ht.step 0).assigned r (Finset.mem_range.1 hr)
      rw [ht.unassigned, e]
      simp
    unfold StopsAt
    rw [Nat.sub_self, hall, div_self (by exact_mod_cast hN.ne')]
    rintro (h | h)
    · omega
    · exact absurd h (not_le.2 htol)
  have hbefore : ∀ j, 1 ≤ j → j < m → ¬ StopsAt N tol tr j := by
    intro j hj1 hj2
    by_cases hj : j = 1
    · rw [hj]; exact hfirst
    · rw [← hstop j hj1 (by omega)]
      exact h4 j (by omega) hj2
  have hcase : (res.iters = m ∧ StopsAt N tol tr m) ∨
      (res.iters = maxIters + 1 ∧ m = maxIters ∧ ¬ StopsAt N tol tr m) := by
    rcases h5 with ⟨a1, a2, a3⟩ | ⟨a1, a2, a3⟩
    · exact .inl ⟨a1, (hstop m h1 (le_refl _)).1 a3⟩
    · refine .inr ⟨a1, a2, ?_⟩
      by_cases hm1 : m = 1
      · rw [hm1]; exact hfirst
      · rw [← hstop m h1 (le_refl _)]
        exact a3 (by omega)
  have hagree : res'.iters = res.iters ∧ Kmeans.Agrees N res'.state (tr (m - 1)) (tr m) := by
    rcases h' with ⟨m', b1, b2, b3, b4, b5, b6⟩ | ⟨b4, b5, b6⟩
    · rcases hcase with ⟨a1, a2⟩ | ⟨a1, a2, a3⟩
      · have : m = m' := by
          rcases lt_trichotomy m m' with hl | he | hg
          · exact absurd a2 (b4 m h1 hl)
          · exact he
          · exact absurd b3 (hbefore m' b1 hg)
        subst this
        exact ⟨by omega, b6⟩
      · exfalso
        by_cases hmm : m' = m
        · rw [hmm] at b3
          exact a3 b3
        · exact hbefore m' b1 (by omega) b3
    · rcases hcase with ⟨a1, a2⟩ | ⟨a1, a2, a3⟩
      · exact absurd a2 (b4 m h1 h2)
      · subst a2
        exact ⟨by omega, b6⟩
  obtain ⟨hi, ha⟩ := hagree
  refine ⟨hi.symm, fun r hr => ?_, ?_, ?_⟩
  · rw [h6 r hr, ha.assign r hr]
    exact (huni m (le_refl _)).2 r hr
  · rw [h7, ha.means]
    exact (huni m (le_refl _)).1
  · funext c
    rw [h8, ha.counts]
    have := Kmeans.count_congr (fun r hr => (huni m (le_refl _)).2 r hr) c
    rw [this]

/-- **C84, what holds of the pruned call against the unpruned one.**  Euclidean metric, tolerance below 1, at
least one iteration.  If no row is ever equally far from two nearest centroids, and in the first iteration no
centroid moves further than it is away from the zero vector afterwards, the pruned and the unpruned call with the
same options return the same number of iterations, assignment, centroids and sizes, whatever their interleavings.
The full statement has neither of the two conditions; `C84_violated` refutes it without the second. -/
theorem C84_same_as_unpruned_partial [Field R] [LinearOrder R] [IsStrictOrderedRing R]
    (dist : Dist.Metric → Row R n → Row R n → R) (hsym : ∀ x y, dist .eucl x y = dist .eucl y x)
    (htri : ∀ x y z, dist .eucl x z ≤ dist .eucl x y + dist .eucl y z)
    (big : R) {c : Codec R B} (hc : CodecOk c) (rng : Rng R S k)
    (sched1 sched2 sched3 sched4 : Nat → List Nat) (a : Call R B) (m : Nat → Nat → R)
    (given : Option (Nat → Nat → R)) (it : InitT)
    (hi : getInit a.init = .ok it) (hd : a.dist = "eucl") (hmx : 0 < a.maxIters) (htol : a.tol < 1)
    (hk : 1 < k) (hcol : 0 < n) (hn : 0 < a.nrow) (hnt : 0 < a.nthreads) (hlt : a.nrow + 8192 < 4294967296)
    (hsz : a.nrow * n * c.size < 9223372036854775808) (hst : Holds c a.source m a.nrow n)
    (hgiven : a.centers = given.map fun g => rowsFrom g n 0 k) (hrng : RngOk rng a.nrow)
    (hc1 : ∀ i, Complete (effThreads a.nthreads a.nrow) (Prune.taskRows a.nrow a.nthreads) (sched1 i))
    (hc2 : ∀ i, Complete (effThreads a.nthreads a.nrow) (Prune.taskRows a.nrow a.nthreads) (sched2 i))
    (hc3 : ∀ i, Complete (effThreads a.nthreads a.nrow) (Kmeans.threadRows a.nrow a.nthreads) (sched3 i))
    (hc4 : ∀ i, Complete (effThreads a.nthreads a.nrow) (Kmeans.threadRows a.nrow a.nthreads) (sched4 i))
    (hpp : it = .plusplus → Seedable (dist .eucl) big (matRows m) a.nrow)
    (hb : ∀ c0 tr, StartsAt it (dist .eucl) (matRows m) a.nrow rng (givenCents given) c0 →
        LloydTrace (dist .eucl) a.nrow (matRows m) c0 tr →
        ∀ i r, r < a.nrow → ∃ c, dist .eucl (matRows m r) ((tr i).cents c) < big)
    (hmv : ∀ c0, StartsAt it (dist .eucl) (matRows m) a.nrow rng (givenCents given) c0 →
        SmallFirstMoves (dist .eucl) a.nrow (matRows m) c0)
    (hties : ∀ c0 tr, StartsAt it (dist .eucl) (matRows m) a.nrow rng (givenCents given) c0 →
        LloydTrace (dist .eucl) a.nrow (matRows m) c0 tr → NoTies (dist .eucl) a.nrow (matRows m) tr) :
    ∃ res res', kmeansPruned dist big c rng sched1 sched2 a = .ok res ∧
      kmeans dist big c rng sched3 sched4 a = .ok res' ∧
      res.iters = res'.iters ∧ (∀ r, r < a.nrow → (res.state.slots r).assign = res'.state.assign r) ∧
      res.state.cltrs.means = res'.state.cltrs.means ∧ res.state.counts = res'.state.counts := by
  have hd' : getDist a.dist = .ok .eucl := by rw [hd]; rfl
  obtain ⟨res', e', c0', hs', _, hl'⟩ := (C82_call dist big hc rng sched3 sched4 a m given (by omega) hcol hn hnt
    (by omega) hsz hst hgiven hrng hc3 hc4).2 it .eucl hi hd' hpp hb
  obtain ⟨res, c0, e, hs, _, _, _, hl⟩ := ((C84_call_partial dist big hc rng sched1 sched2 a m given (by omega) hcol hn hnt
    hlt hsz hst hgiven hrng hc1 hc2).2 it .eucl hi hd').2 hk hpp (fun _ c0 hs r hr => by
      obtain ⟨tr, htr⟩ := Kmeans.trace_exists (dist .eucl) a.nrow (matRows m) c0 (by omega)
      have := hb c0 tr hs htr 0 r hr
      rwa [htr.cents] at this)
  obtain rfl := startsAt_unique hs hs'
  obtain ⟨tr, htr⟩ := Kmeans.trace_exists (dist .eucl) a.nrow (matRows m) c0 (by omega)
  exact ⟨res, res', e, e', same_result hn htol htr (hties c0 tr hs htr)
    (hl hmx rfl hsym htri (hmv c0 hs)) (hl' hmx tr htr)⟩

/-! ### Witnesses -/

/-- An engine that always draws row 1 and the real 0. -/
def drawOne : Rng ℚ Nat 2 :=
  ⟨0, fun s => (1, s + 1), fun s => (⟨s % 2, Nat.mod_lt _ (by decide)⟩, s + 1), fun s => (0, s + 1)⟩

/-- What the caller sees. -/
structure SeenPruned where
  iters : Nat
  assign : List (Option (Fin 2))
  cents : List ℚ
  sizes : List Int
  deriving DecidableEq

/-- The pruned call on rows of one value, the metric being the absolute difference. -/
def showPruned (rows : List ℚ) (init : String) (centers : Option (List ℚ)) (maxIters : Nat) : Res SeenPruned :=
  (kmeansPruned (k := 2) (n := 1) (fun _ => Kmeans.demoDist) 1000 (oneCell ℚ) drawOne Kmeans.demoSched
    Kmeans.demoSched ⟨.file rows, rows.length, maxIters, 2, centers, init, -1, "eucl"⟩).map fun x =>
      ⟨x.iters, (List.range rows.length).map fun r => (x.state.slots r).assign,
        (List.finRange 2).map fun c => x.state.cltrs.means c 0, (List.finRange 2).map x.state.counts⟩

/-- The unpruned call on the same rows with the same options. -/
def showFull (rows : List ℚ) (init : String) (centers : Option (List ℚ)) (maxIters : Nat) : Res SeenPruned :=
  (kmeans (k := 2) (n := 1) (fun _ => Kmeans.demoDist) 1000 (oneCell ℚ) drawOne Kmeans.demoSched
    Kmeans.demoSched ⟨.file rows, rows.length, maxIters, 2, centers, init, -1, "eucl"⟩).map fun x =>
      ⟨x.iters, (List.range rows.length).map x.state.assign,
        (List.finRange 2).map fun c => x.state.cltrs.means c 0, (List.finRange 2).map x.state.counts⟩

/-- Both calls agree on 0, 1, 10, 12 from the centres 0 and 1. -/
example : showPruned [0, 1, 10, 12] "none" (some [0, 1]) 100 =
      .ok ⟨3, [some 0, some 0, some 1, some 1], [1/2, 11], [2, 2]⟩ ∧
    showFull [0, 1, 10, 12] "none" (some [0, 1]) 100 =
      .ok ⟨3, [some 0, some 0, some 1, some 1], [1/2, 11], [2, 2]⟩ := by
  decide +kernel

/-- **C84 is violated.**  Rows 6, 1 and -12 in one dimension, two clusters, the default initialisation k-means++
with row 1 and the real 0 drawn, a hundred iterations allowed.  The pruned call reports convergence after two
iterations, with the row 1 in the cluster with centroid -11/2, 13/2 away from it, and 5 away from the centroid 6 of
the other cluster.  The unpruned call with the same options returns the clusters {6, 1} and {-12}. -/
theorem C84_violated :
    showPruned [6, 1, -12] "kmeanspp" none 100 = .ok ⟨2, [some 1, some 0, some 0], [-11/2, 6], [2, 1]⟩ ∧
    Kmeans.demoDist (fun _ => 1) (fun _ => -11/2) = 13/2 ∧ Kmeans.demoDist (fun _ => 1) (fun _ => 6) = 5 ∧
    showFull [6, 1, -12] "kmeanspp" none 100 = .ok ⟨3, [some 1, some 1, some 0], [-12, 7/2], [1, 2]⟩ ∧
    showPruned [6, 1, -12] "none" (some [1, 6]) 100 = .ok ⟨2, [some 1, some 0, some 0], [-11/2, 6], [2, 1]⟩ := by
  decide +kernel

/-- **C84 is violated without iterations.**  With the random partition and no iterations the rows are assigned,
but all sizes are reported as zero. -/
theorem C84_violated_sizes :
    showPruned [6, 1, -12] "random" none 0 = .ok ⟨0, [some 0, some 1, some 0], [-3, 1], [0, 0]⟩ := by
  decide +kernel

/-- The distance table of a call with one cluster does not exist: the pruned call fails an assertion where the
unpruned one puts all rows into the cluster. -/
theorem C84_violated_one_cluster :
    ((kmeansPruned (k := 1) (n := 1) (fun _ => Kmeans.demoDist) 1000 (oneCell ℚ)
      (⟨0, fun s => (1, s), fun s => (0, s), fun s => (0, s)⟩ : Rng ℚ Nat 1) Kmeans.demoSched Kmeans.demoSched
      ⟨.file [6, 1, -12], 3, 100, 2, none, "kmeanspp", -1, "eucl"⟩).map fun x => x.iters) = .error .assertFail ∧
    ((kmeans (k := 1) (n := 1) (fun _ => Kmeans.demoDist) 1000 (oneCell ℚ)
      (⟨0, fun s => (1, s), fun s => (0, s), fun s => (0, s)⟩ : Rng ℚ Nat 1) Kmeans.demoSched Kmeans.demoSched
      ⟨.file [6, 1, -12], 3, 100, 2, none, "kmeanspp", -1, "eucl"⟩).map fun x =>
        (List.range 3).map x.state.assign) = .ok [some 0, some 0, some 0] := by
  decide +kernel

/-! ### Bounded data -/

/-- **C84, bounded data.**  With the Euclidean, squared Euclidean or taxicab metric over the reals nothing has to be
assumed about the initialisation: it is enough that all entries are at most `X` in size. -/
theorem C84_bounded_data_partial (big X : ℝ) (h1 : 1 ≤ big) (hl : n * (2 * X) < big) (hq : n * (2 * X) ^ 2 < big)
    {c : Codec ℝ B} (hc : CodecOk c) (rng : Rng ℝ S k)
    (sched1 sched2 : Nat → List Nat) (a : Call ℝ B) (m : Nat → Nat → ℝ) (given : Option (Nat → Nat → ℝ))
    (hk : 1 < k) (hcol : 0 < n) (hn : 0 < a.nrow) (hnt : 0 < a.nthreads) (hlt : a.nrow + 8192 < 4294967296)
    (hsz : a.nrow * n * c.size < 9223372036854775808) (hst : Holds c a.source m a.nrow n)
    (hgiven : a.centers = given.map fun g => rowsFrom g n 0 k) (hrng : RngOk rng a.nrow)
    (hc1 : ∀ i, Complete (effThreads a.nthreads a.nrow) (Prune.taskRows a.nrow a.nthreads) (sched1 i))
    (hc2 : ∀ i, Complete (effThreads a.nthreads a.nrow) (Prune.taskRows a.nrow a.nthreads) (sched2 i))
    (hm : ∀ r j, r < a.nrow → j < n → |m r j| ≤ X)
    (hg : ∀ g, given = some g → ∀ r j, r < k → j < n → |g r j| ≤ X)
    (it : InitT) (met : Dist.Metric) (hi : getInit a.init = .ok it) (hd : getDist a.dist = .ok met)
    (hcos : met ≠ .cos) :
    ∃ res : Prune.Result ℝ ℝ k n, kmeansPruned (realDist big) big c rng sched1 sched2 a = .ok res ∧
      DeliversPruned it (realDist big met) (met = .eucl) (matRows m) a.nrow rng (givenCents given) a.tol a.maxIters
        res := by
  have hX : 0 ≤ X := (abs_nonneg _).trans (hm 0 0 hn hcol)
  have hm' : ∀ r, r < a.nrow → ∀ j : Fin n, |(matRows m r : Row ℝ n) j| ≤ X := fun r hr j => hm r j.val hr j.isLt
  obtain ⟨res, c0, e, hs, w1, w2, w3, w4⟩ := ((C84_call_partial (realDist big) big hc rng sched1 sched2 a m given
    (by omega) hcol hn hnt hlt hsz hst hgiven hrng hc1 hc2).2 it met hi hd).2 hk (fun _ =>
      ⟨fun q r hq' hr => (realDist_lt h1 hl hq hcos (hm' q hq') (hm' r hr)).1,
        fun r hr => realDist_self hcos _,
        fun q r hq' hr => (realDist_lt h1 hl hq hcos (hm' q hq') (hm' r hr)).2⟩) (fun _ c0 hs r hr => by
      have hb0 := start_bounded hX hm' (fun g hgv cc j => by
        cases given with
        | none => cases hgv
        | some g' =>
          rw [← Option.some.inj hgv]
          exact hg g' rfl cc.val j.val cc.isLt j.isLt) hrng hs
      exact ⟨⟨0, by omega⟩, (realDist_lt h1 hl hq hcos (hm' r hr) (fun j => hb0 ⟨0, by omega⟩ j)).2⟩)
  refine ⟨res, e, c0, hs, w1, w2, w3, fun h0 he hmv => ?_⟩
  subst he
  refine w4 h0 rfl (fun x y => ?_) (fun x y z => ?_) hmv
  · exact (Dist.C36_euclid_is_metric x y x).2.1
  · exact (Dist.C36_euclid_is_metric x y z).2.2.2

/-- The interleaving of the witness lets both workers finish. -/
theorem demoSched_complete (i : Nat) :
    Complete (effThreads 2 4) (Prune.taskRows 4 2) (Kmeans.demoSched i) := by
  intro t ht
  have : t = 0 ∨ t = 1 := by
    have : effThreads 2 4 = 2 := by decide
    omega
  rcases this with rfl | rfl <;> (unfold Kmeans.demoSched; decide)

/-- All hypotheses hold for the default call on the four rows. -/
example : ∃ res : Prune.Result ℝ ℝ 2 1,
    kmeansPruned (realDist 1000) 1000 (oneCell ℝ) (counter ℝ) Kmeans.demoSched Kmeans.demoSched
      ⟨.file ((rowsFrom fourRows 1 0 4).flatMap (oneCell ℝ).enc), 4, 100, 2, none, "kmeanspp", -1, "eucl"⟩ = .ok res ∧
    DeliversPruned .plusplus (realDist 1000 .eucl) (.eucl = Dist.Metric.eucl) (matRows fourRows) 4 (counter ℝ) none (-1)
      100 res := by
  exact C84_bounded_data_partial 1000 12 (by norm_num) (by norm_num) (by norm_num) (oneCell_ok ℝ) (counter ℝ)
    Kmeans.demoSched Kmeans.demoSched
    ⟨.file ((rowsFrom fourRows 1 0 4).flatMap (oneCell ℝ).enc), 4, 100, 2, none, "kmeanspp", -1, "eucl"⟩ fourRows none
    (by decide) (by decide) (by decide) (by decide) (by decide) (by decide) rfl rfl (counter_ok ℝ) demoSched_complete
    demoSched_complete (fun r j _ _ => by unfold fourRows; split_ifs <;> norm_num) (fun g h => by cases h)
    .plusplus .eucl rfl rfl (by decide)

/-! ### The four rows meet the conditions -/

/-- A pair of centroids in one dimension. -/
def two (x y : ℚ) : Fin 2 → Row ℚ 1 := fun c _ => if c = 0 then x else y

/-- In each step the nearest clusters are unique and known. -/
theorem demo_step {s s' : Snap ℚ 2 1} {x y x' y' : ℚ} (asg : Nat → Fin 2) (hs : s.cents = two x y)
    (hnear : ∀ r, r < 4 → ∀ c, (∀ c', Kmeans.demoDist (Kmeans.demoData r) (two x y c) ≤
      Kmeans.demoDist (Kmeans.demoData r) (two x y c')) → c = asg r)
    (hmean : ∀ c j, memberMean 4 Kmeans.demoData (fun r => some (asg r)) c j = two x' y' c j)
    (h : LloydStepAnyTie Kmeans.demoDist 4 Kmeans.demoData s s') : s'.cents = two x' y' := by
  have ha : ∀ r, r < 4 → s'.assign r = some (asg r) := fun r hr => by
    obtain ⟨c, e, hc⟩ := h.assigned r hr
    rw [e, hnear r hr c (by rw [hs] at hc; exact hc)]
  funext c j
  rw [h.means c j, Kmeans.memberMean_congr' ha c j]
  exact hmean c j

/-- The run from the centres 0 and 1. -/
theorem demo_trace {tr : Nat → Snap ℚ 2 1}
    (h : LloydTrace Kmeans.demoDist 4 Kmeans.demoData (two 0 1) tr) (i : Nat) :
    (tr i).cents = two 0 1 ∨ (tr i).cents = two 0 (23/3) ∨ (tr i).cents = two (1/2) 11 := by
  have hw : ∀ i, LloydStepAnyTie Kmeans.demoDist 4 Kmeans.demoData (tr i) (tr (i + 1)) := fun i =>
    ⟨fun r hr => by
      obtain ⟨c, e, hc⟩ := (h.step i).assigned r hr
      exact ⟨c, e, hc.1⟩, (h.step i).means⟩
  induction i with
  | zero => exact .inl h.cents
  | succ i ih =>
    rcases ih with ih | ih | ih
    · exact .inr (.inl (demo_step (fun r => if r = 0 then 0 else 1) ih (by decide +kernel) (by decide +kernel) (hw i)))
    · exact .inr (.inr (demo_step (fun r => if r < 2 then 0 else 1) ih (by decide +kernel) (by decide +kernel) (hw i)))
    · exact .inr (.inr (demo_step (fun r => if r < 2 then 0 else 1) ih (by decide +kernel) (by decide +kernel) (hw i)))

/-- The four rows as a matrix of rationals, and the two centres. -/
def fourRat (r _ : Nat) : ℚ := if r = 0 then 0 else if r = 1 then 1 else if r = 2 then 10 else 12

/-- Every hypothesis of `C84_same_as_unpruned_partial` holds for the rows 0, 1, 10, 12 and the given centres 0, 1. -/
example : ∃ (res : Prune.Result ℚ ℚ 2 1) (res' : Kmeans.Result ℚ 2 1),
    kmeansPruned (fun _ => Kmeans.demoDist) 1000 (oneCell ℚ) drawOne Kmeans.demoSched Kmeans.demoSched
      ⟨.file ((rowsFrom fourRat 1 0 4).flatMap (oneCell ℚ).enc), 4, 100, 2, some (rowsFrom fourRat 1 0 2), "none", -1,
        "eucl"⟩ = .ok res ∧
    kmeans (fun _ => Kmeans.demoDist) 1000 (oneCell ℚ) drawOne Kmeans.demoSched Kmeans.demoSched
      ⟨.file ((rowsFrom fourRat 1 0 4).flatMap (oneCell ℚ).enc), 4, 100, 2, some (rowsFrom fourRat 1 0 2), "none", -1,
        "eucl"⟩ = .ok res' ∧
    res.iters = res'.iters ∧ (∀ r, r < 4 → (res.state.slots r).assign = res'.state.assign r) ∧
    res.state.cltrs.means = res'.state.cltrs.means ∧ res.state.counts = res'.state.counts := by
  have hsch : ∀ i, Complete (effThreads 2 4) (Kmeans.threadRows 4 2) (Kmeans.demoSched i) := by
    intro i t ht
    have : t = 0 ∨ t = 1 := by
      have : effThreads 2 4 = 2 := by decide
      omega
    rcases this with rfl | rfl <;> (unfold Kmeans.demoSched; decide)
  have hrows : matRows (n := 1) fourRat = Kmeans.demoData := rfl
  have hgiv : ∀ c0, StartsAt .none Kmeans.demoDist (matRows fourRat) 4 drawOne (givenCents (some fourRat)) c0 →
      c0 = two 0 1 := by
    intro c0 h
    rw [h.1 _ rfl]
    funext c j
    have : c = 0 ∨ c = 1 := by omega
    rcases this with rfl | rfl <;> rfl
  refine C84_same_as_unpruned_partial (fun _ => Kmeans.demoDist) ?_ ?_ 1000 (oneCell_ok ℚ) drawOne Kmeans.demoSched
    Kmeans.demoSched Kmeans.demoSched Kmeans.demoSched
    ⟨.file ((rowsFrom fourRat 1 0 4).flatMap (oneCell ℚ).enc), 4, 100, 2, some (rowsFrom fourRat 1 0 2), "none", -1,
        "eucl"⟩ fourRat (some fourRat) .none rfl rfl (by decide) (by decide +kernel) (by decide) (by decide) (by decide) (by decide)
    (by decide) (by decide) rfl rfl ⟨fun _ => (by decide : 1 < 4), fun _ => ⟨le_refl _, zero_le_one⟩⟩ demoSched_complete
    demoSched_complete hsch hsch (fun h => by cases h) ?_ ?_ ?_
  · intro x y
    unfold Kmeans.demoDist
    split_ifs <;> grind
  · intro x y z
    unfold Kmeans.demoDist
    split_ifs <;> grind
  · intro c0 tr hs ht i r hr
    rw [hgiv c0 hs, hrows] at ht
    rw [hrows]
    have hr' : ∀ x y : ℚ, (∀ r, r < 4 → Kmeans.demoDist (Kmeans.demoData r) (two x y 0) < 1000) → (tr i).cents = two x y →
        ∃ c, Kmeans.demoDist (Kmeans.demoData r) ((tr i).cents c) < 1000 := fun x y h e => ⟨0, by rw [e]; exact h r hr⟩
    rcases demo_trace ht i with e | e | e <;> exact hr' _ _ (by decide +kernel) e
  · intro c0 hs tr htr
    rw [hgiv c0 hs, hrows] at htr
    have := demo_step (fun r => if r = 0 then 0 else 1) (x' := 0) (y' := 23/3) htr.cents (by decide +kernel)
      (by decide +kernel) (htr.step 0 (by decide))
    rw [hgiv c0 hs, this]
    decide +kernel
  · intro c0 tr hs ht i r c c' hr h h'
    rw [hgiv c0 hs, hrows] at ht
    rw [hrows] at h h'
    have key : ∀ x y : ℚ, (∀ r, r < 4 → ∀ c c', (∀ d, Kmeans.demoDist (Kmeans.demoData r) (two x y c) ≤
        Kmeans.demoDist (Kmeans.demoData r) (two x y d)) → (∀ d, Kmeans.demoDist (Kmeans.demoData r) (two x y c') ≤
        Kmeans.demoDist (Kmeans.demoData r) (two x y d)) → c = c') → (tr i).cents = two x y → c = c' := by
      intro x y hh e
      rw [e] at h h'
      exact hh r hr c c' h h'
    rcases demo_trace ht i with e | e | e <;> exact key _ _ (by decide +kernel) e

/-! ### `knori` -/

/-- **C84, the program.**  `knori` without `-P` refuses `none` without a file of centres, and a data file whose
size is not the one that the numbers of rows and columns imply.  Otherwise, for a file that stores the matrix, it
does what the pruned call with the same options does; a file of centres replaces the initialisation. -/
theorem C84_knori_partial (big X : ℝ) (h1 : 1 ≤ big) (hl : n * (2 * X) < big) (hq : n * (2 * X) ^ 2 < big)
    {c : Codec ℝ B} (hc : CodecOk c) (rng : Rng ℝ S k) (sched1 sched2 : Nat → List Nat)
    (datafn : List B) (centersfn : Option (List B)) (nrow maxIters nthreads : Nat) (init : String) (tol : ℝ)
    (distType : String) (hk : 1 < k) (hcol : 0 < n) (hn : 0 < nrow) (hnt : 0 < nthreads)
    (hlt : nrow + 8192 < 4294967296)
    (hsz : nrow * n * c.size < 9223372036854775808) (hszk : k * n * c.size < 18446744073709551616)
    (hrng : RngOk rng nrow)
    (hc1 : ∀ i, Complete (effThreads nthreads nrow) (Prune.taskRows nrow nthreads) (sched1 i))
    (hc2 : ∀ i, Complete (effThreads nthreads nrow) (Prune.taskRows nrow nthreads) (sched2 i)) :
    (centersfn = none → init = "none" →
      knoriPruned (n := n) (realDist big) big c rng sched1 sched2 datafn centersfn nrow maxIters nthreads init tol
        distType = .error .assertFail) ∧
    (¬ (centersfn = none ∧ init = "none") → datafn.length ≠ nrow * n * c.size →
      knoriPruned (n := n) (realDist big) big c rng sched1 sched2 datafn centersfn nrow maxIters nthreads init tol
        distType = .error .throws) ∧
    ∀ (m : Nat → Nat → ℝ) (given : Option (Nat → Nat → ℝ)) it met,
      Stores c datafn m nrow n → centersfn = given.map (fun g => (rowsFrom g n 0 k).flatMap c.enc) →
      (∀ r j, r < nrow → j < n → |m r j| ≤ X) →
      (∀ g, given = some g → ∀ r j, r < k → j < n → |g r j| ≤ X) →
      (given.isSome → it = .none) → (given = none → getInit init = .ok it ∧ it ≠ .none) →
      getDist distType = .ok met → met ≠ .cos →
      ∃ res : Prune.Result ℝ ℝ k n,
        knoriPruned (realDist big) big c rng sched1 sched2 datafn centersfn nrow maxIters nthreads init tol distType
          = .ok res ∧
        DeliversPruned it (realDist big met) (met = .eucl) (matRows m) nrow rng (givenCents given) tol maxIters
          res := by
  have hu : u64 (u64 (c.size * nrow) * n) = nrow * n * c.size := by
    have h0 : c.size * nrow * n = nrow * n * c.size := by ring
    rw [u64_mul (by omega), h0]
  refine ⟨?_, ?_, ?_⟩
  · rintro rfl rfl
    unfold knoriPruned
    simp
  · intro h hne
    unfold knoriPruned
    dsimp only
    rw [if_neg, if_pos (by rw [hu]; exact hne)]
    rintro ⟨h2, h3⟩
    have h4 : centersfn = none := by simpa using h3
    subst h4
    exact h ⟨rfl, by simpa using h2⟩
  · intro m given it met hst hcf hm hg hs hnone hd hcos
    have hlen : datafn.length = nrow * n * c.size := by
      unfold Stores at hst
      rw [hst, length_enc hc, length_rowsFrom]
    unfold knoriPruned
    dsimp only
    cases given with
    | none =>
      rw [Option.map_none] at hcf
      subst hcf
      obtain ⟨hi, hit⟩ := hnone rfl
      have hne : init ≠ "none" := by
        rintro rfl
        exact hit (Except.ok.inj hi).symm
      rw [if_neg (by simp [hne]), if_neg (by rw [hu]; simp [hlen])]
      simp only [Option.isSome_none, Bool.false_eq_true, if_false]
      exact C84_bounded_data_partial big X h1 hl hq hc rng sched1 sched2
        ⟨.file datafn, nrow, maxIters, nthreads, none, init, tol, distType⟩ m none hk hcol hn hnt hlt hsz hst rfl hrng
        hc1 hc2 hm hg it met hi hd hcos
    | some g =>
      rw [Option.map_some] at hcf
      subst hcf
      obtain rfl := hs rfl
      rw [if_neg (by simp), if_neg (by rw [hu]; simp [hlen])]
      obtain ⟨y, ey⟩ := read_stored (n := n) hc g k (Nat.mul_pos (by omega) hcol) hszk rfl
      dsimp only
      rw [ey]
      simp only [Option.isSome_some, if_true]
      exact C84_bounded_data_partial big X h1 hl hq hc rng sched1 sched2
        ⟨.file datafn, nrow, maxIters, nthreads, some (rowsFrom g n 0 k), "none", tol, distType⟩ m (some g) hk hcol hn
        hnt hlt hsz hst rfl hrng hc1 hc2 hm hg .none met rfl hd hcos

/-- Centres from a file; the initialisation that is named is not used. -/
example : ∃ res : Prune.Result ℝ ℝ 2 1,
    knoriPruned (realDist 1000) 1000 (oneCell ℝ) (counter ℝ) Kmeans.demoSched Kmeans.demoSched
      ((rowsFrom fourRows 1 0 4).flatMap (oneCell ℝ).enc) (some ((rowsFrom fourRows 1 0 2).flatMap (oneCell ℝ).enc))
      4 100 2 "kmeanspp" (-1) "eucl" = .ok res ∧
    DeliversPruned .none (realDist 1000 .eucl) (.eucl = Dist.Metric.eucl) (matRows fourRows) 4 (counter ℝ)
      (givenCents (some fourRows)) (-1) 100 res := by
  have hb : ∀ r j, |fourRows r j| ≤ 12 := fun r j => by unfold fourRows; split_ifs <;> norm_num
  exact (C84_knori_partial 1000 12 (by norm_num) (by norm_num) (by norm_num) (oneCell_ok ℝ) (counter ℝ)
    Kmeans.demoSched Kmeans.demoSched _ _ 4 100 2 "kmeanspp" (-1) "eucl"
    (by decide) (by decide) (by decide) (by decide) (by decide) (by decide) (by decide) (counter_ok ℝ)
    demoSched_complete demoSched_complete).2.2
    fourRows (some fourRows) .none .eucl rfl rfl (fun r j _ _ => hb r j) (fun g h r j _ _ => by
      rw [← Option.some.inj h]; exact hb r j) (fun _ => rfl) (fun h => by cases h) rfl (by decide)

end Knor.Driver
