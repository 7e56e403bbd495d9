import Verif.Spec.BestStart
import Verif.Props.MultiStart
import Verif.Props.PrunedDriver
import Mathlib.Algebra.Order.Field.Rat

/-!
# Property C96: whole multi-start calls

The functions `kmeansPP` and the program `kmeanspp`.
-/

namespace Knor.Driver

open Knor Knor.Spec Knor.Io Knor.Partition Knor.Par Knor.Init

variable {R S B : Type _} {k n : Nat}

theorem skip_iterate {α : Type _} (draw : S → α × S) (m : Nat) (s : S) :
    skip draw m s = (fun s => (draw s).2)^[m] s := by
  induction m generalizing s with
  | zero => rfl
  | succ m ih => rw [Function.iterate_succ_apply]; exact ih _

theorem engineAt_eq (rng : Rng R S k) (i : Nat) : engineAt rng i = seedAt rng i := by
  induction i with
  | zero => rfl
  | succ i ih =>
    show skip rng.unit k (rng.row (engineAt rng i)).2 = _
    rw [ih, skip_iterate]
    rfl

/-- One start, in terms of the specification. -/
theorem startGives_starts [Field R] [LinearOrder R] [IsStrictOrderedRing R] {dist : Row R n → Row R n → R} {big : R}
    {rng : Rng R S k} {data data' : Nat → Row R n} {N nt T : Nat} {todo : Nat → List Nat}
    {sched : Nat → Nat → List Nat} (hdata : ∀ r, r < N → data r = data' r) (hp : Seedable dist big data' N)
    (hsp : Split N T todo) (hn : 0 < N) (hnt : 0 < nt) (hlt : N < 4294967296) (hrng : RngOk rng N)
    (hc : ∀ j i, Complete T todo (sched j i)) (i : Nat) {s : Kpp R R k n}
    (h : MultiStart.StartGives dist big data N nt T todo (startDraws rng sched i) s) :
    StartsAt .plusplus dist data' N { rng with seed := seedAt rng i } none s.cltrs.means := by
  obtain ⟨s0, h0, e, -⟩ := h
  have hf := hrng.row (engineAt rng i)
  intro c
  obtain ⟨q1, q2⟩ := C29_weighted_choice dist big data N nt T todo
    (fun q r hq hr => by rw [hdata q hq, hdata r hr]; exact hp.pos q r hq hr)
    (fun r hr => by rw [hdata r hr]; exact hp.self r hr) hsp hn hnt hlt (sched i) (hc i) _ hf _
    (fun j => hrng.unit (skip rng.unit j (rng.row (engineAt rng i)).2))
    (fun r hr => by rw [hdata r hr, hdata _ hf]; exact hp.lt r _ hr hf) s0 s h0 e c
  dsimp only
  rw [← engineAt_eq]
  refine ⟨fun h => by rw [← hdata _ hf]; exact q1 h, fun h => ?_⟩
  obtain ⟨r, d, w1, w2, w3⟩ := q2 h
  refine ⟨r, d, _, ?_, minTo_data hdata w2, outputs_get _ _ _ _ (by have := c.isLt; omega), w3⟩
  rw [← hdata r w3.1]; exact w1

/-- **C96, partial.**  An unknown metric throws; with one cluster the call fails an assertion.  Every other call on an
`nrow × n` matrix, in a file or in an array, with a single start, or with any number of starts and a library whose
`clear` keeps a vector's storage, returns the best of the starts; asking for no start gives one.  This for any number
of threads, any interleavings and any draws of the engine.  Missing: several starts under the language's rules
(`C96_violated`). -/
theorem C96_call_partial [Field R] [LinearOrder R] [IsStrictOrderedRing R] (keeps : Bool)
    (dist : Dist.Metric → Row R n → Row R n → R) (big : R) {c : Codec R B} (hc : CodecOk c) (rng : Rng R S k)
    (sched : Nat → Nat → List Nat) (source : Source R B) (nrow nstart nthreads : Nat) (distType : String)
    (m : Nat → Nat → R)
    (hk : 0 < k) (hcol : 0 < n) (hn : 0 < nrow) (hnt : 0 < nthreads) (hlt : nrow + 8192 < 4294967296)
    (hsz : nrow * n * c.size < 9223372036854775808) (hst : Holds c source m nrow n) (hrng : RngOk rng nrow)
    (hcs : ∀ j i, Complete (effThreads nthreads nrow) (Prune.taskRows nrow nthreads) (sched j i)) :
    (distType ∉ ["eucl", "cos", "taxi", "sqeucl"] →
      kmeansPPCall keeps dist big c rng sched source nrow nstart nthreads distType = .error .throws) ∧
    ∀ met, getDist distType = .ok met →
      (k = 1 → kmeansPPCall keeps dist big c rng sched source nrow nstart nthreads distType = .error .assertFail) ∧
      (1 < k → Seedable (dist met) big (matRows m) nrow → (keeps = true ∨ nstart ≤ 1) →
        ∃ res, kmeansPPCall keeps dist big c rng sched source nrow nstart nthreads distType = .ok res ∧
          DeliversBest (dist met) (matRows m) nrow rng (max 1 nstart) res.1 res.2.1 res.2.2.means res.2.2.assign
            res.2.2.counts) := by
  constructor
  · intro h
    simp only [List.mem_cons, List.not_mem_nil, or_false, not_or] at h
    unfold kmeansPPCall
    simp [getDist, h]
  intro met hm
  refine ⟨fun h1 => ?_, fun hk1 hp hkeep => ?_⟩
  · obtain ⟨c0, e0, -⟩ := construct_ok (k := k) (n := n) hk .plusplus (none : Option (Nat → Nat → R))
    unfold kmeansPPCall constructPruned DistMatrix.create
    rw [hm]
    dsimp only
    rw [Option.map_none] at e0
    rw [e0]
    dsimp only
    rw [if_neg (by omega)]
  obtain ⟨s0, e0, -⟩ := constructPruned_ok (k := k) (n := n) big hk1 .plusplus none
  rw [Option.map_none] at e0
  obtain ⟨ws, el, hrows⟩ := load_ok hc m ⟨source, nrow, 0, nthreads, none, "kmeanspp", -1, distType⟩ hn hnt hcol
    (by dsimp only; omega) hsz hst
  dsimp only at hrows
  have hsp := Prune.split_taskRows hn hnt hlt
  obtain ⟨idx, e, cp, st, en, er, h1, h2, h3, h4, h5, h6, h7, h8, h9⟩ :=
    MultiStart.C52_best_start_partial (k := k) (dist := dist met) (big := big) (data := rowsIn ws nrow nthreads)
      (fun q r hq hr => by rw [hrows q hq, hrows r hr]; exact hp.pos q r hq hr)
      (fun r hr => by rw [hrows r hr]; exact hp.self r hr) hsp hk hn hnt (by omega) (startDraws rng sched)
      hcs (fun j => hrng.row _) (fun j i => hrng.unit _)
      (fun j r hr => by
        show dist met _ (rowsIn ws nrow nthreads (rng.row (engineAt rng j)).1) < big
        rw [hrows r hr, hrows _ (hrng.row _)]
        exact hp.lt r _ hr (hrng.row _)) (max 1 nstart)
      (by omega) keeps (by rcases hkeep with h | h; exact .inl h; exact .inr (by omega))
  have hok : ∀ i, i < max 1 nstart → KppOk (dist met) (rowsIn ws nrow nthreads) nrow (st i) :=
    fun i hi => (h1 i hi).1.choose_spec.2.2
  refine ⟨(idx, e, cp), ?_, fun i => (st i).cltrs.means, en, fun i hi => ⟨?_, ?_⟩, h2, h3, ?_, ?_, h4, h7, ?_, h9⟩
  · unfold kmeansPPCall
    rw [hm]
    dsimp only
    rw [e0]
    dsimp only
    rw [el]
    dsimp only
    rw [← er]
    rcases Nat.eq_zero_or_pos nstart with rfl | h
    · rfl
    · rw [show max 1 nstart = nstart by omega]
  · exact startGives_starts hrows hp hsp hn hnt (by omega) hrng hcs i (h1 i hi).1
  · obtain ⟨near, w1, w2⟩ := (h1 i hi).2
    refine ⟨near, fun r hr => by rw [← hrows r hr]; exact w1 r hr, w2.trans ?_⟩
    exact Finset.sum_congr rfl fun r hr => by rw [hrows r (Finset.mem_range.1 hr)]
  · rw [← h4]; exact h5
  · rw [← h4]; exact h6
  · intro r hr
    obtain ⟨cc, w1, _, w3⟩ := (hok (idx - 1) (by omega)).nearest r hr
    dsimp only
    rw [h8, h7]
    exact ⟨cc, w1, by rw [← hrows r hr]; exact w3⟩

/-- **C96 is violated** under the language's rules: with two or more starts the second start writes to an empty
vector, whatever the data. -/
theorem C96_violated [Field R] [LinearOrder R] [IsStrictOrderedRing R]
    (dist : Dist.Metric → Row R n → Row R n → R) (big : R) {c : Codec R B} (hc : CodecOk c) (rng : Rng R S k)
    (sched : Nat → Nat → List Nat) (source : Source R B) (nrow nstart nthreads : Nat) (distType : String)
    (m : Nat → Nat → R)
    (hk1 : 1 < k) (hcol : 0 < n) (hn : 0 < nrow) (hnt : 0 < nthreads) (hlt : nrow + 8192 < 4294967296)
    (hsz : nrow * n * c.size < 9223372036854775808) (hst : Holds c source m nrow n) (hrng : RngOk rng nrow)
    (hcs : ∀ j i, Complete (effThreads nthreads nrow) (Prune.taskRows nrow nthreads) (sched j i))
    (met : Dist.Metric) (hm : getDist distType = .ok met) (hp : Seedable (dist met) big (matRows m) nrow)
    (hns : 2 ≤ nstart) :
    kmeansPPCall (k := k) false dist big c rng sched source nrow nstart nthreads distType = .error .ub := by
  obtain ⟨s0, e0, -⟩ := constructPruned_ok (k := k) (n := n) big hk1 .plusplus none
  rw [Option.map_none] at e0
  obtain ⟨ws, el, hrows⟩ := load_ok hc m ⟨source, nrow, 0, nthreads, none, "kmeanspp", -1, distType⟩ hn hnt hcol
    (by dsimp only; omega) hsz hst
  dsimp only at hrows
  unfold kmeansPPCall
  rw [hm]
  dsimp only
  rw [e0]
  dsimp only
  rw [el]
  dsimp only
  exact MultiStart.C52_violated (fun q r hq hr => by rw [hrows q hq, hrows r hr]; exact hp.pos q r hq hr)
    (fun r hr => by rw [hrows r hr]; exact hp.self r hr) (Prune.split_taskRows hn hnt hlt) (by omega) hn hnt
    (by omega) (startDraws rng sched) hcs (fun j => hrng.row _) (fun j i => hrng.unit _)
    (fun j r hr => by
        show dist met _ (rowsIn ws nrow nthreads (rng.row (engineAt rng j)).1) < big
        rw [hrows r hr, hrows _ (hrng.row _)]
        exact hp.lt r _ hr (hrng.row _)) nstart hns

/-- The energy of a set of centres is determined. -/
theorem energyIs_unique [AddCommMonoid R] [PartialOrder R] {dist : Row R n → Row R n → R} {data : Nat → Row R n}
    {N : Nat} {cents : Fin k → Row R n} {e e' : R} (h : EnergyIs dist data N cents e)
    (h' : EnergyIs dist data N cents e') : e = e' := by
  obtain ⟨a, h1, rfl⟩ := h
  obtain ⟨b, h2, rfl⟩ := h'
  refine Finset.sum_congr rfl fun r hr => le_antisymm ?_ ?_
  · exact h1 r (Finset.mem_range.1 hr) (b r)
  · exact h2 r (Finset.mem_range.1 hr) (a r)

/-- **C96, reproducibility.**  What the starts deliver determines the reported start, its energy and its centres: two
calls with any numbers of threads and any interleavings report the same. -/
theorem C96_same [Field R] [LinearOrder R] {dist : Row R n → Row R n → R} {data : Nat → Row R n} {N : Nat}
    {rng : Rng R S k} {nstart idx idx' : Nat} {e e' : R} {means means' : Fin k → Row R n}
    {assign assign' : Nat → Option (Fin k)} {sizes sizes' : Fin k → Int}
    (h : DeliversBest dist data N rng nstart idx e means assign sizes)
    (h' : DeliversBest dist data N rng nstart idx' e' means' assign' sizes') :
    idx = idx' ∧ e = e' ∧ means = means' := by
  obtain ⟨c1, n1, a1, a2, a3, a4, a5, a6, a7, -⟩ := h
  obtain ⟨c2, n2, b1, b2, b3, b4, b5, b6, b7, -⟩ := h'
  have hc : ∀ i, i < nstart → c1 i = c2 i := fun i hi => startsAt_unique (a1 i hi).1 (b1 i hi).1
  have hn : ∀ i, i < nstart → n1 i = n2 i := fun i hi =>
    energyIs_unique (a1 i hi).2 (by rw [hc i hi]; exact (b1 i hi).2)
  have hidx : idx = idx' := by
    by_contra hne
    rcases Nat.lt_or_gt_of_ne hne with hlt | hlt
    · have q := b5 (idx - 1) (by omega)
      have p := a4 (idx' - 1) (by omega)
      rw [← hn _ (by omega), ← hn _ (by omega)] at q
      exact absurd p (not_le.2 q)
    · have q := a5 (idx' - 1) (by omega)
      have p := b4 (idx - 1) (by omega)
      rw [← hn _ (by omega), ← hn _ (by omega)] at p
      exact absurd p (not_le.2 q)
  subst hidx
  exact ⟨rfl, by rw [a6, b6, hn _ (by omega)], by rw [a7, b7, hc _ (by omega)]⟩

/-- **C96, the program, partial.**  `kmeanspp` refuses a data file whose size is not the one that the numbers of rows
and columns imply.  For a file that stores the matrix, entries of size at most `X` and a metric other than the cosine
one it reports the best start, with the same proviso as `C96_call_partial`. -/
theorem C96_kmeanspp_partial (keeps : Bool) (big X : ℝ) (h1 : 1 ≤ big) (hl : n * (2 * X) < big)
    (hq : n * (2 * X) ^ 2 < big) {c : Codec ℝ B} (hc : CodecOk c) (rng : Rng ℝ S k) (sched : Nat → Nat → List Nat)
    (datafn : List B) (nrow nstart nthreads : Nat) (distType : String)
    (hk : 1 < k) (hcol : 0 < n) (hn : 0 < nrow) (hnt : 0 < nthreads) (hlt : nrow + 8192 < 4294967296)
    (hsz : nrow * n * c.size < 9223372036854775808) (hrng : RngOk rng nrow)
    (hcs : ∀ j i, Complete (effThreads nthreads nrow) (Prune.taskRows nrow nthreads) (sched j i)) :
    (datafn.length ≠ nrow * n * c.size →
      kmeansppMain (n := n) keeps (realDist big) big c rng sched datafn nrow nstart nthreads distType
        = .error .throws) ∧
    ∀ (m : Nat → Nat → ℝ) met, Stores c datafn m nrow n → (∀ r j, r < nrow → j < n → |m r j| ≤ X) →
      getDist distType = .ok met → met ≠ .cos → (keeps = true ∨ nstart ≤ 1) →
      ∃ res : Nat × ℝ × MultiStart.Copy ℝ k n,
        kmeansppMain keeps (realDist big) big c rng sched datafn nrow nstart nthreads distType = .ok res ∧
        DeliversBest (realDist big met) (matRows m) nrow rng (max 1 nstart) res.1 res.2.1 res.2.2.means
          res.2.2.assign res.2.2.counts := by
  have hu : u64 (u64 (c.size * nrow) * n) = nrow * n * c.size := by
    have h0 : c.size * nrow * n = nrow * n * c.size := by ring
    rw [u64_mul (by omega), h0]
  refine ⟨fun hne => ?_, fun m met hst hm hd hcos hkeep => ?_⟩
  · unfold kmeansppMain
    rw [hu, if_pos hne]
  · have hlen : datafn.length = nrow * n * c.size := by
      have := hst
      unfold Stores at this
      rw [this, length_enc hc, length_rowsFrom]
    have hm' : ∀ r, r < nrow → ∀ j : Fin n, |(matRows m r : Row ℝ n) j| ≤ X := fun r hr j => hm r j.val hr j.isLt
    unfold kmeansppMain
    rw [hu, if_neg (by simp [hlen])]
    exact ((C96_call_partial keeps (realDist big) big hc rng sched (.file datafn) nrow nstart nthreads distType m
      (by omega) hcol hn hnt hlt hsz hst hrng hcs).2 met hd).2 hk
      ⟨fun q r hq' hr => (realDist_lt h1 hl hq hcos (hm' q hq') (hm' r hr)).1, fun r hr => realDist_self hcos _,
        fun q r hq' hr => (realDist_lt h1 hl hq hcos (hm' q hq') (hm' r hr)).2⟩ hkeep

/-! ### Concrete calls -/

/-- All hypotheses hold for the default number of starts on the four rows. -/
example : ∃ res : Nat × ℝ × MultiStart.Copy ℝ 2 1,
    kmeansppMain true (realDist 1000) 1000 (oneCell ℝ) (counter ℝ) (fun _ => Kmeans.demoSched)
      ((rowsFrom fourRows 1 0 4).flatMap (oneCell ℝ).enc) 4 10 2 "eucl" = .ok res ∧
    DeliversBest (realDist 1000 .eucl) (matRows fourRows) 4 (counter ℝ) 10 res.1 res.2.1 res.2.2.means res.2.2.assign
      res.2.2.counts := by
  have hb : ∀ r j, |fourRows r j| ≤ 12 := fun r j => by unfold fourRows; split_ifs <;> norm_num
  exact (C96_kmeanspp_partial true 1000 12 (by norm_num) (by norm_num) (by norm_num) (oneCell_ok ℝ) (counter ℝ)
    (fun _ => Kmeans.demoSched) _ 4 10 2 "eucl" (by decide) (by decide) (by decide) (by decide) (by decide) (by decide)
    (counter_ok ℝ) (fun _ => demoSched_complete)).2 fourRows .eucl rfl (fun r j _ _ => hb r j) rfl (by decide)
    (.inl rfl)

/-- What a caller sees of a multi-start call on four rows: start, energy, assignment, centres, sizes.  The engine is
a counter: start `i` draws row `i % 4`, and always the number 0. -/
def showBest (keeps : Bool) (file : List ℚ) (nstart : Nat) (dist : String) :
    Except Fault ((Nat × ℚ) × List (Option Nat) × List ℚ × List Int) :=
  (kmeansppMain (k := 2) (n := 1) keeps (fun _ => Kmeans.demoDist) 1000 (oneCell ℚ)
    (⟨0, fun s => (s % 4, s + 1), fun s => (0, s), fun s => (0, s)⟩ : Rng ℚ Nat 2) (fun _ => Kmeans.demoSched)
    file 4 nstart 2 dist).map fun res =>
      ((res.1, res.2.1), (List.range 4).map fun r => (res.2.2.assign r).map Fin.val,
        (List.finRange 2).map fun c => res.2.2.means c 0, (List.finRange 2).map res.2.2.counts)

example : showBest true [0, 1, 10, 12] 0 "eucl" = showBest false [0, 1, 10, 12] 1 "eucl" := by decide +kernel
example : showBest true [5, 1, 10, 12] 1 "eucl" =
    .ok ((1, 16), [some 1, some 0, some 0, some 0], [5, 5], [3, 1]) := by decide +kernel
example : showBest true [5, 1, 10, 12] 4 "eucl" =
    .ok ((3, 6), [some 1, some 1, some 0, some 0], [10, 5], [2, 2]) := by decide +kernel
example : showBest false [5, 1, 10, 12] 4 "eucl" = .error .ub := by decide +kernel
example : showBest true [5, 1, 10] 4 "eucl" = .error .throws := by decide +kernel
example : showBest true [5, 1, 10, 12] 4 "haus" = .error .throws := by decide +kernel

end Knor.Driver
