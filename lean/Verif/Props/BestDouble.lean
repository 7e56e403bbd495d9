import Verif.Lemmas.BestNear
import Verif.Props.MedoidDouble

/-!
# Property C120: whole multi-start calls on doubles

C96 is about exact arithmetic.  Here are the functions `kmeansPP` and the program `kmeanspp` on IEEE doubles.
-/

namespace Knor.Driver

open Knor Knor.Spec Knor.Io Knor.Partition Knor.Par Knor.Init Knor.Kmeans Knor.NearLloyd Knor.Distr

variable {R S B : Type _} {k n : Nat} [Zero R] [Add R] [Sub R] [Mul R] [Div R] [IntCast R] [NatCast R] [LT R] [LE R]
  {fin : R → Prop} {val : R → ℝ} {sqrt abs' : R → R} {big : R}

/-- **C120.**  An unknown metric throws; with one cluster the call fails an assertion.  On IEEE doubles, every other call
on an `nrow × n` matrix of doubles of at most `2^400`, with the Euclidean, squared Euclidean or taxicab metric, in a
file or in an array, for any number of threads, any interleavings and any draws of the engine: with a single start, or
with any number of starts and a library whose `clear` keeps a vector's storage, it never fails or overflows and returns
the best of the starts, up to rounding; with several starts under the language's rules it is undefined, whatever the
data.  Missing: the cosine metric. -/
theorem C120_call_partial [Neg R] [One R] [DecidableLT R] [DecidableLE R] (hI : IeeeDouble fin val sqrt abs')
    (hbig : fin big ∧ val big = maxDouble) (keeps : Bool) (cosd : Row R n → Row R n → R) {c : Codec R B}
    (hc : CodecOk c) (rng : Rng R S k) (sched : Nat → Nat → List Nat) (source : Source R B)
    (nrow nstart nthreads : Nat) (distType : String) (m : Nat → Nat → R)
    (hk : 0 < k) (hcol : 0 < n) (hcol' : n ≤ 4294967296) (hn : 0 < nrow) (hnt : 0 < nthreads)
    (hlt : nrow + 8192 < 4294967296)
    (hsz : nrow * n * c.size < 9223372036854775808) (hst : Holds c source m nrow n) (hrng : RngFin fin val rng nrow)
    (hcs : ∀ j i, Complete (effThreads nthreads nrow) (Prune.taskRows nrow nthreads) (sched j i))
    (hm : ∀ r j, r < nrow → j < n → fin (m r j) ∧ |val (m r j)| ≤ 2 ^ (400 : Int)) :
    (distType ∉ ["eucl", "cos", "taxi", "sqeucl"] →
      kmeansPPCall keeps (anyDist sqrt abs' cosd) big c rng sched source nrow nstart nthreads distType =
        .error .throws) ∧
    ∀ met, getDist distType = .ok met →
      (k = 1 → kmeansPPCall keeps (anyDist sqrt abs' cosd) big c rng sched source nrow nstart nthreads distType =
        .error .assertFail) ∧
      (1 < k → met ≠ .cos →
        ((keeps = true ∨ nstart ≤ 1) →
          ∃ res, kmeansPPCall keeps (anyDist sqrt abs' cosd) big c rng sched source nrow nstart nthreads distType =
              .ok res ∧
            NearDeliversBest fin val met (matRows m) nrow (min nthreads nrow) rng (max 1 nstart) res.1 res.2.1
              res.2.2.means res.2.2.assign res.2.2.counts) ∧
        (keeps = false → 2 ≤ nstart →
          kmeansPPCall keeps (anyDist sqrt abs' cosd) big c rng sched source nrow nstart nthreads distType =
            .error .ub)) := by
  constructor
  · intro h
    simp only [List.mem_cons, List.not_mem_nil, or_false, not_or] at h
    unfold kmeansPPCall
    simp [getDist, h]
  intro met hd
  refine ⟨fun h1 => ?_, fun hk1 hcos => ?_⟩
  · obtain ⟨c0, e0, -⟩ := construct_ok (k := k) (n := n) hk .plusplus (none : Option (Nat → Nat → R))
    unfold kmeansPPCall constructPruned DistMatrix.create
    rw [hd]
    dsimp only
    rw [Option.map_none] at e0
    rw [e0]
    dsimp only
    rw [if_neg (by omega)]
  obtain ⟨s0, e0, -⟩ := constructPruned_ok (k := k) (n := n) big hk1 .plusplus none
  rw [Option.map_none] at e0
  obtain ⟨ws, el, hrows⟩ := load_ok hc m ⟨source, nrow, 0, nthreads, none, "kmeanspp", (0 : R), distType⟩ hn hnt hcol
    (by dsimp only; omega) hsz hst
  dsimp only at hrows
  have el' : load c ⟨source, nrow, 0, nthreads, none, "kmeanspp", (-1 : R), distType⟩ n = .ok ws := el
  have hbox : ∀ r, r < nrow → InBox (n := n) fin val (2 ^ (400 : Int)) (rowsIn ws nrow nthreads r) := fun r hr => by
    rw [hrows r hr]
    exact fun j => hm r j.val hr j.isLt
  have h42 : ∀ {x : Row R n}, InBox fin val (2 ^ (400 : Int)) x → InBox fin val (2 ^ (402 : Int)) x := fun h =>
    Kmeans.InBox.mono h (p_le (by norm_num))
  have hsp := Prune.split_taskRows hn hnt hlt
  have hlen := len_le (nt := nthreads) hn hnt (show nrow < 4294967296 by omega)
  have hS := seed_double hI hbig hcol' cosd hcos hbox
  obtain ⟨hD1, hD2⟩ := dist_double (n := n) hI hbig hcol' cosd hcos
  have hrun := MultiStart.kmeansPP_any (dist := anyDist sqrt abs' cosd met) (big := big)
    (data := rowsIn ws nrow nthreads) (N := nrow) (nt := nthreads) (T := effThreads nthreads nrow)
    (todo := Prune.taskRows nrow nthreads) (w := startDraws rng sched) (fin := fin) (val := val)
    (G := fun i (p : Kpp R R k n) => ((∀ r, r < nrow → fin (p.slots r).dist) ∧
        Post (fun x y => val (anyDist sqrt abs' cosd met x y)) (rowsIn ws nrow nthreads) nrow [] (p.map val)) ∧
      (∀ c, ∃ r, r < nrow ∧ p.cltrs.means c = rowsIn ws nrow nthreads r) ∧
      ∀ c : Fin k, (c.val = 0 → p.cltrs.means c = rowsIn ws nrow nthreads (startDraws rng sched i).first) ∧
        (0 < c.val → ∃ r d, p.cltrs.means c = rowsIn ws nrow nthreads r ∧
          NearMinTo (metricDist met) ((n + 4 : Nat) * 2 ^ (-52 : Int)) (metricSlack met)
            (fun r j => val (rowsIn ws nrow nthreads r j)) nrow (fun c' => c' < c)
            (fun c j => val (p.cltrs.means c j)) d ∧
          NearSampled (drawErr (nrow / effThreads nthreads nrow + nrow % effThreads nthreads nrow)
            (effThreads nthreads nrow) nrow) (2 ^ (-1073 : Int)) d nrow
            (val ((startDraws rng sched i).u (c.val - 1))) r))
    (fun i s hs => kpp_near_slots hI hS hk hn hnt (by omega) hsp (taskRows_length hn hnt hlt) (by omega)
      (hcs i) (fun j => hrng.unit _) (hrng.row _) s hs)
  have hen : ∀ i p, _ → (_ ∧ _) := fun (i : Nat) (p : Kpp R R k n) (h : ((∀ r, r < nrow → fin (p.slots r).dist) ∧
        Post (fun x y => val (anyDist sqrt abs' cosd met x y)) (rowsIn ws nrow nthreads) nrow [] (p.map val)) ∧
      (∀ c, ∃ r, r < nrow ∧ p.cltrs.means c = rowsIn ws nrow nthreads r)) =>
    MultiStart.enOf_near hI hk (data := rowsIn ws nrow nthreads) (N := nrow) (γ := (n + 4 : Nat) * 2 ^ (-52 : Int))
      (ζ := metricSlack met) (dG := metricDist met) (dist := anyDist sqrt abs' cosd met) (by omega)
      (Medoid.p52_le (by omega))
      (by cases met <;> first | exact (p_pos _).le | exact le_refl _)
      (fun x y => metricDist_nonneg met x y) h.1.1 (fun r hr c => by
        have hbc : InBox fin val (2 ^ (402 : Int)) (p.cltrs.means c) := by
          obtain ⟨q, hq, e⟩ := h.2 c
          rw [e]
          exact h42 (hbox q hq)
        exact ⟨(hD2 _ _ (h42 (hbox r hr)) hbc).1, (hD2 _ _ (h42 (hbox r hr)) hbc).2.1,
          (hD1.near _ _ (h42 (hbox r hr)) hbc).2.2⟩)
      (fun r hr => ⟨fun c => h.1.2.le r hr c (by simp), by
        obtain ⟨c, _, _, w2⟩ := h.1.2.val r hr
        exact ⟨c, w2⟩⟩)
  have hrun2 := hrun (fun i p h => ⟨(hen i p ⟨h.1, h.2.1⟩).1, fun r hr => by
    obtain ⟨c, _, w1, _⟩ := h.1.2.val r hr
    exact ⟨c, w1⟩⟩) hI.lt keeps nstart
  have hcall : kmeansPPCall keeps (anyDist sqrt abs' cosd) big c rng sched source nrow nstart nthreads distType =
      MultiStart.kmeansPP keeps (anyDist sqrt abs' cosd met) big (rowsIn ws nrow nthreads) nrow nthreads
        (effThreads nthreads nrow) (Prune.taskRows nrow nthreads) (startDraws rng sched) nstart := by
    unfold kmeansPPCall
    rw [hd]
    dsimp only
    rw [e0]
    dsimp only
    rw [el']
  rw [hcall]
  refine ⟨fun hkeep => ?_, fun hkeep hns => hrun2.2 hkeep hn hns⟩
  obtain ⟨best, st, e, hb, hst⟩ := hrun2.1 hkeep
  have hN : 1 ≤ max 1 nstart := by omega
  refine ⟨best, e, fun i => (st i).cltrs.means, fun i => MultiStart.enOf nrow (st i), fun i hi => ?_, hb.index.1,
    hb.index.2, ?_, ?_, hb.energy, ?_, ?_, ?_⟩
  · obtain ⟨a1, a2, a3⟩ := hst i hi
    obtain ⟨f1, f2⟩ := hen i _ ⟨a1, a2⟩
    refine ⟨fun c => ⟨fun h => ?_, fun h => ?_⟩, f1, ?_⟩
    · dsimp only
      rw [(a3 c).1 h, hrows _ (show (startDraws rng sched i).first < nrow from hrng.row _), ← engineAt_eq]
      rfl
    · obtain ⟨r, d, w1, w2, w3⟩ := (a3 c).2 h
      refine ⟨r, d, _, by dsimp only; rw [w1, hrows r w3.1], ?_, outputs_get _ _ _ _ (by have := c.isLt; omega), ?_⟩
      · intro q hq
        have := w2 q hq
        dsimp only at this ⊢
        rw [hrows q hq] at this
        exact this
      · have w4 : NearSampled _ _ d nrow
            (val (rng.unit (skip rng.unit (c.val - 1) (rng.row (engineAt rng i)).2)).1) r := w3
        rw [engineAt_eq] at w4
        exact w4
    · obtain ⟨E, ⟨near, g1, g2⟩, g3⟩ := f2
      refine ⟨E, ⟨near, fun r hr => ?_, ?_⟩, ?_⟩
      · have := g1 r hr
        dsimp only at this ⊢
        rw [hrows r hr] at this
        exact this
      · rw [g2]
        exact Finset.sum_congr rfl fun r hr => by dsimp only; rw [hrows r (Finset.mem_range.1 hr)]
      · refine g3.trans (le_of_eq ?_)
        push_cast
        ring
  · intro i hi
    dsimp only
    rw [← hb.energy]
    exact hb.min i hi
  · intro i hi
    dsimp only
    rw [← hb.energy]
    exact hb.first i hi
  · rw [hb.copy]
  · have hi : best.1 - 1 < max 1 nstart := by have := hb.index; omega
    obtain ⟨a1, a2, -⟩ := hst _ hi
    rw [hb.copy]
    intro r hr
    obtain ⟨c, _, w1, w2⟩ := a1.2.val r hr
    refine ⟨c, w1, ?_⟩
    rw [← hrows r hr]
    refine nearNearest_of_min hD1 (h42 (hbox r hr)) (fun c => ?_) fun c' => ?_
    · obtain ⟨q, hq, e⟩ := a2 c
      dsimp only
      rw [e]
      exact h42 (hbox q hq)
    · have h5 := a1.2.le r hr c' (by simp)
      rw [w2] at h5
      exact h5
  · intro cl
    rw [hb.copy]

/-- **C120, the program, partial.**  `kmeanspp` refuses a data file whose size is not the one that the numbers of rows
and columns imply; for a file that stores the matrix it does what `C120_call_partial` says. -/
theorem C120_kmeanspp_partial [Neg R] [One R] [DecidableLT R] [DecidableLE R] (hI : IeeeDouble fin val sqrt abs')
    (hbig : fin big ∧ val big = maxDouble) (keeps : Bool) (cosd : Row R n → Row R n → R) {c : Codec R B}
    (hc : CodecOk c) (rng : Rng R S k) (sched : Nat → Nat → List Nat) (datafn : List B)
    (nrow nstart nthreads : Nat) (distType : String)
    (hk : 1 < k) (hcol : 0 < n) (hcol' : n ≤ 4294967296) (hn : 0 < nrow) (hnt : 0 < nthreads)
    (hlt : nrow + 8192 < 4294967296)
    (hsz : nrow * n * c.size < 9223372036854775808) (hrng : RngFin fin val rng nrow)
    (hcs : ∀ j i, Complete (effThreads nthreads nrow) (Prune.taskRows nrow nthreads) (sched j i)) :
    (datafn.length ≠ nrow * n * c.size →
      kmeansppMain (n := n) keeps (anyDist sqrt abs' cosd) big c rng sched datafn nrow nstart nthreads distType
        = .error .throws) ∧
    ∀ (m : Nat → Nat → R) met, Stores c datafn m nrow n →
      (∀ r j, r < nrow → j < n → fin (m r j) ∧ |val (m r j)| ≤ 2 ^ (400 : Int)) →
      getDist distType = .ok met → met ≠ .cos →
      ((keeps = true ∨ nstart ≤ 1) → ∃ res : Nat × R × MultiStart.Copy R k n,
        kmeansppMain keeps (anyDist sqrt abs' cosd) big c rng sched datafn nrow nstart nthreads distType = .ok res ∧
        NearDeliversBest fin val met (matRows m) nrow (min nthreads nrow) rng (max 1 nstart) res.1 res.2.1
          res.2.2.means res.2.2.assign res.2.2.counts) ∧
      (keeps = false → 2 ≤ nstart →
        kmeansppMain (n := n) keeps (anyDist sqrt abs' cosd) big c rng sched datafn nrow nstart nthreads distType
          = .error .ub) := by
  have hu : u64 (u64 (c.size * nrow) * n) = nrow * n * c.size := by
    have h0 : c.size * nrow * n = nrow * n * c.size := by ring
    rw [u64_mul (by omega), h0]
  refine ⟨fun hne => ?_, fun m met hst hm hd hcos => ?_⟩
  · unfold kmeansppMain
    rw [hu, if_pos hne]
  · have hlen : datafn.length = nrow * n * c.size := by
      have := hst
      unfold Stores at this
      rw [this, length_enc hc, length_rowsFrom]
    unfold kmeansppMain
    rw [hu, if_neg (by simp [hlen])]
    exact ((C120_call_partial hI hbig keeps cosd hc rng sched (.file datafn) nrow nstart nthreads distType m
      (by omega) hcol hcol' hn hnt hlt hsz hst hrng hcs hm).2 met hd).2 hk hcos

omit [Add R] [Sub R] [Mul R] [Div R] [IntCast R] [NatCast R] [LT R] [LE R] in
/-- **C120, the best start.**  What a call returns determines, up to rounding, which start is the best for the exact
distances: the reported start has an energy `E`, and no start with the centres that were sampled has an energy that is
lower by more than the errors; if one start is better than all the others by more than the errors, it is the one. -/
theorem C120_best {met : Dist.Metric} {data : Nat → Row R n} {N T : Nat} {rng : Rng R S k} {nstart idx : Nat}
    {energy : R} {means : Fin k → Row R n} {assign : Nat → Option (Fin k)} {sizes : Fin k → Int} {ε ω : ℝ}
    (hε : ε = ((n + 2 * N + 6 : Nat) : ℝ) * 2 ^ (-52 : Int)) (hω : ω = 2 * (N * metricSlack met))
    (h : NearDeliversBest fin val met data N T rng nstart idx energy means assign sizes) :
    ∃ (cents : Nat → Fin k → Row R n) (E : Nat → ℝ),
      (∀ i, i < nstart →
        NearStartsAt fin val .plusplus (metricDist met) ((n + 4 : Nat) * 2 ^ (-52 : Int)) (metricSlack met)
          ((N + 1 : Nat) * 2 ^ (-52 : Int)) (2 ^ (-1075 : Int)) ((N / T + N % T + T + N + 2 : Nat) * 2 ^ (-52 : Int))
          (2 ^ (-1073 : Int)) data N { rng with seed := seedAt rng i } none (cents i) ∧
        EnergyIs (metricDist met) (fun r j => val (data r j)) N (fun c j => val (cents i c j)) (E i)) ∧
      means = cents (idx - 1) ∧ |val energy - E (idx - 1)| ≤ ε * E (idx - 1) + ω ∧
      (∀ i, i < nstart → (1 - ε) * E (idx - 1) ≤ (1 + ε) * E i + 2 * ω) ∧
      ∀ b, b < nstart → (∀ i, i < nstart → i ≠ b → (1 + ε) * E b + 2 * ω < (1 - ε) * E i) → idx = b + 1 := by
  subst hε hω
  obtain ⟨cents, en, h1, h2, h3, h4, -, h6, h7, -⟩ := h
  have hx : ∀ i, ∃ E, i < nstart → EnergyIs (metricDist met) (fun r j => val (data r j)) N
      (fun c j => val (cents i c j)) E ∧ |val (en i) - E| ≤
        ((n + 2 * N + 6 : Nat) : ℝ) * 2 ^ (-52 : Int) * E + 2 * (N * metricSlack met) := by
    intro i
    by_cases hi : i < nstart
    · obtain ⟨-, -, E, g1, g2⟩ := h1 i hi
      exact ⟨E, fun _ => ⟨g1, g2⟩⟩
    · exact ⟨0, fun h => absurd h hi⟩
  choose E hE using hx
  have hidx : idx - 1 < nstart := by omega
  have hle : ∀ i, i < nstart → (1 - ((n + 2 * N + 6 : Nat) : ℝ) * 2 ^ (-52 : Int)) * E (idx - 1) ≤
      (1 + ((n + 2 * N + 6 : Nat) : ℝ) * 2 ^ (-52 : Int)) * E i + 2 * (2 * (N * metricSlack met)) := by
    intro i hi
    have a1 := (abs_le.1 (hE _ hidx).2).1
    have a2 := (abs_le.1 (hE _ hi).2).2
    have a3 := h4 i hi
    linarith
  refine ⟨cents, E, fun i hi => ⟨(h1 i hi).1, (hE i hi).1⟩, h7, by rw [h6]; exact (hE _ hidx).2, hle,
    fun b hb hsep => ?_⟩
  by_contra hne
  have := hsep (idx - 1) hidx (by omega)
  exact absurd (hle b hb) (not_le.2 this)

/-! ### Calls that meet the hypotheses -/

/-- The negative of a double. -/
noncomputable instance : Neg Dbl := ⟨fun x => ⟨-x.v⟩⟩

/-- The rows 0, 1, 2, 3 in a file, ten starts, two threads. -/
example : ∃ res : Nat × Dbl × MultiStart.Copy Dbl 2 1,
    kmeansppMain true (anyDist (fun x => Dbl.rnd (√x.v)) (fun x => ⟨|x.v|⟩) fun _ _ => 0) ⟨maxDouble⟩ (oneCell Dbl)
      dblRng (fun _ => Kmeans.demoSched) ((rowsFrom (fun r _ => (⟨(r : ℝ)⟩ : Dbl)) 1 0 4).flatMap (oneCell Dbl).enc)
      4 10 2 "eucl" = .ok res ∧
    NearDeliversBest Dbl.Fin' Dbl.v .eucl (matRows fun r _ => ⟨(r : ℝ)⟩) 4 2 dblRng 10 res.1 res.2.1 res.2.2.means
      res.2.2.assign res.2.2.counts :=
  (C120_kmeanspp_partial (k := 2) (n := 1) Dbl.ieee dbl_input.big true (fun _ _ => 0) (oneCell_ok Dbl) dblRng
    (fun _ => Kmeans.demoSched) _ 4 10 2 "eucl" (by decide) (by decide) (by decide) (by decide) (by decide) (by decide)
    (by decide) dblRng_fin (fun _ => demoSched_complete)).2 _ .eucl rfl
    (fun r j hr _ => dbl_small r (by omega)) rfl (by decide) |>.1 (.inl rfl)

/-- Two starts under the language's rules. -/
example : kmeansppMain (k := 2) (n := 1) false (anyDist (fun x => Dbl.rnd (√x.v)) (fun x => ⟨|x.v|⟩) fun _ _ => 0)
      ⟨maxDouble⟩ (oneCell Dbl) dblRng (fun _ => Kmeans.demoSched)
      ((rowsFrom (fun r _ => (⟨(r : ℝ)⟩ : Dbl)) 1 0 4).flatMap (oneCell Dbl).enc) 4 2 2 "taxi" = .error .ub :=
  ((C120_kmeanspp_partial (k := 2) (n := 1) Dbl.ieee dbl_input.big false (fun _ _ => 0) (oneCell_ok Dbl) dblRng
    (fun _ => Kmeans.demoSched) _ 4 2 2 "taxi" (by decide) (by decide) (by decide) (by decide) (by decide) (by decide)
    (by decide) dblRng_fin (fun _ => demoSched_complete)).2 _ .taxi rfl
    (fun r j hr _ => dbl_small r (by omega)) rfl (by decide)).2 rfl (by decide)

end Knor.Driver
