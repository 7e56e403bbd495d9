import Verif.Lemmas.Driver
import Verif.Props.Init
import Verif.Props.Kmeans
import Verif.Props.Dist

/-!
# Property C82: a whole k-means call

From the names of the options and the caller's data to the returned clustering.
-/

namespace Knor.Driver

open Knor Knor.Spec Knor.Io Knor.Partition Knor.Par Knor.Kmeans Knor.Init

variable {R S B : Type _} {k n : Nat}

/-- The names of the initialisations. -/
theorem getInit_ok (s : String) (it : InitT) : getInit s = .ok it ↔
    (s = "random" ∧ it = .random) ∨ (s = "forgy" ∧ it = .forgy) ∨ (s = "kmeanspp" ∧ it = .plusplus) ∨
      (s = "none" ∧ it = .none) := by
  unfold getInit
  split
  · subst s; cases it <;> simp
  · split
    · subst s; cases it <;> simp
    · split
      · subst s; cases it <;> simp
      · split
        · subst s; cases it <;> simp
        · rename_i h1 h2 h3 h4
          simp [h1, h2, h3, h4]

theorem getDist_ok (s : String) (m : Dist.Metric) : getDist s = .ok m ↔
    (s = "eucl" ∧ m = .eucl) ∨ (s = "cos" ∧ m = .cos) ∨ (s = "taxi" ∧ m = .taxi) ∨
      (s = "sqeucl" ∧ m = .sqeucl) := by
  unfold getDist
  split
  · subst s; cases m <;> simp
  · split
    · subst s; cases m <;> simp
    · split
      · subst s; cases m <;> simp
      · split
        · subst s; cases m <;> simp
        · rename_i h1 h2 h3 h4
          simp [h1, h2, h3, h4]

/-- The centroids after construction. -/
theorem construct_ok [Zero R] (hk : 0 < k) (it : InitT) (given : Option (Nat → Nat → R)) :
    ∃ c0 : Clusters R k n, construct it (given.map fun g => rowsFrom g n 0 k) = .ok c0 ∧
      (it ≠ .none → c0 = Clusters.empty) ∧
      (it = .none → (∀ g, given = some g → c0.means = fun c j => g c.val j.val) ∧
        (given = none → ∀ c j, c0.means c j = 0)) := by
  unfold construct
  rw [if_neg (by omega)]
  cases given with
  | none => exact ⟨_, rfl, fun _ => rfl, fun _ => ⟨fun g h => (by cases h), fun _ _ _ => rfl⟩⟩
  | some g =>
    rw [Option.map_some]
    cases it with
    | none =>
      dsimp only
      rw [if_neg (by rw [length_rowsFrom]; omega)]
      refine ⟨_, rfl, fun h => absurd rfl h, fun _ => ⟨fun g' h => ?_, fun h => by cases h⟩⟩
      obtain rfl : g = g' := Option.some.inj h
      funext c j
      exact getD_rowsFrom g c.isLt j
    | _ => exact ⟨_, rfl, fun _ => rfl, fun h => by cases h⟩

/-- What k-means++ needs of the distances between the rows. -/
structure Seedable [Zero R] [LE R] [LT R] (dist : Row R n → Row R n → R) (big : R) (data : Nat → Row R n) (N : Nat) :
    Prop where
  pos : ∀ q r, q < N → r < N → 0 ≤ dist (data q) (data r)
  self : ∀ r, r < N → dist (data r) (data r) = 0
  lt : ∀ q r, q < N → r < N → dist (data q) (data r) < big

theorem runInit_ok [Field R] [LinearOrder R] [IsStrictOrderedRing R] (dist : Row R n → Row R n → R) (big : R)
    (rng : Rng R S k) (data data' : Nat → Row R n) (N nt : Nat) (hdata : ∀ r, r < N → data r = data' r)
    (hk : 0 < k) (hn : 0 < N) (hnt : 0 < nt) (hlt : N < 4294967296) (hrng : RngOk rng N)
    (sched : Nat → List Nat) (hc : ∀ i, Complete (effThreads nt N) (threadRows N nt) (sched i))
    (it : InitT) (hpp : it = .plusplus → Seedable dist big data' N)
    (given : Option (Nat → Nat → R)) :
    ∃ c0 s, construct it (given.map fun g => rowsFrom g n 0 k) = .ok c0 ∧
      runInit dist big rng data N nt sched it c0 = .ok s ∧
      StartsAt it dist data' N rng (givenCents given) s.cltrs.means := by
  obtain ⟨c0, e0, h0, h1⟩ := construct_ok (k := k) (n := n) hk it given
  refine ⟨c0, ?_⟩
  cases it with
  | none =>
    refine ⟨_, e0, rfl, ?_⟩
    obtain ⟨w1, w2⟩ := h1 rfl
    refine ⟨fun g hg => ?_, fun hg => w2 (by unfold givenCents at hg; simpa using hg)⟩
    cases given with
    | none => cases hg
    | some g' =>
      rw [← Option.some.inj hg]
      exact w1 g' rfl
  | forgy =>
    obtain ⟨c', e, h⟩ := C27_forgy_picks_rows rng.row rng.seed data N nt hnt hlt hrng.row c0
    refine ⟨⟨c', fun _ => none, fun _ => 0, 0⟩, e0, ?_, fun c => ?_⟩
    · unfold runInit; dsimp only; rw [e]
    · obtain ⟨r, hr, q1, q2⟩ := h c
      exact ⟨r, hr, q1, by rw [← hdata r hr]; exact q2⟩
  | random =>
    obtain rfl := h0 (by decide)
    obtain ⟨c', a', e, q1, _, q3⟩ := C28_random_partition rng.clust rng.seed data N nt hnt hlt (fun _ => none)
    refine ⟨⟨c', a', fun _ => 0, 0⟩, e0, ?_, a', q1, fun c j => ?_⟩
    · unfold runInit; dsimp only; rw [e]
    · rw [← memberMean_data hdata]; exact q3 c j
  | plusplus =>
    have hp := hpp rfl
    have hpos : ∀ q r, q < N → r < N → 0 ≤ dist (data q) (data r) := fun q r hq hr => by
      rw [hdata q hq, hdata r hr]; exact hp.pos q r hq hr
    have hself : ∀ r, r < N → dist (data r) (data r) = 0 := fun r hr => by
      rw [hdata r hr]; exact hp.self r hr
    have hf := hrng.row rng.seed
    have hbig : ∀ r, r < N → dist (data r) (data (rng.row rng.seed).1) < big := fun r hr => by
      rw [hdata r hr, hdata _ hf]; exact hp.lt r _ hr hf
    have hu : ∀ i, 0 ≤ (rng.unit (skip rng.unit i (rng.row rng.seed).2)).1 ∧
        (rng.unit (skip rng.unit i (rng.row rng.seed).2)).1 ≤ 1 := fun i => hrng.unit _
    have hsp := split_threadRows hn hnt hlt
    obtain ⟨s', e, _⟩ := C29_kmeanspp (k := k) dist big data N nt _ _ hpos hself hsp hk hn hnt hlt sched hc _ hf _ hu
      hbig ⟨c0, fun _ => ⟨big, none⟩⟩ (fun _ _ => rfl)
    refine ⟨⟨s'.cltrs, fun r => (s'.slots r).assign, fun _ => 0, 0⟩, e0, ?_, fun c => ?_⟩
    · unfold runInit; dsimp only; rw [e]
    · obtain ⟨q1, q2⟩ := C29_weighted_choice dist big data N nt _ _ hpos hself hsp hn hnt hlt sched hc _ hf _ hu
        hbig ⟨c0, fun _ => ⟨big, none⟩⟩ s' (fun _ _ => rfl) e c
      refine ⟨fun h => by rw [← hdata _ hf]; exact q1 h, fun h => ?_⟩
      obtain ⟨r, d, w1, w2, w3⟩ := q2 h
      refine ⟨r, d, _, ?_, minTo_data hdata w2, outputs_get _ _ _ _ (by have := c.isLt; omega), w3⟩
      rw [← hdata r w3.1]; exact w1

/-- **C82.**  A call whose option names are not among the documented ones throws.  Every other call on an
`nrow × n` matrix, in a file or in an array, returns the result of Lloyd's algorithm with the named metric, from
the centroids that the named initialisation promises; whatever the number of threads, the interleavings and the
draws of the engine are.  Given centres are used with `none` and ignored otherwise.  `hb` says that no distance
that decides an assignment reaches `big`, and `hpp` that the distances between rows suit k-means++. -/
theorem C82_call [Field R] [LinearOrder R] [IsStrictOrderedRing R]
    (dist : Dist.Metric → Row R n → Row R n → R) (big : R) {c : Codec R B} (hc : CodecOk c) (rng : Rng R S k)
    (sched1 sched2 : Nat → List Nat) (a : Call R B) (m : Nat → Nat → R) (given : Option (Nat → Nat → R))
    (hk : 0 < k) (hcol : 0 < n) (hn : 0 < a.nrow) (hnt : 0 < a.nthreads) (hlt : a.nrow < 4294967296)
    (hsz : a.nrow * n * c.size < 9223372036854775808) (hst : Holds c a.source m a.nrow n)
    (hgiven : a.centers = given.map fun g => rowsFrom g n 0 k) (hrng : RngOk rng a.nrow)
    (hc1 : ∀ i, Complete (effThreads a.nthreads a.nrow) (threadRows a.nrow a.nthreads) (sched1 i))
    (hc2 : ∀ i, Complete (effThreads a.nthreads a.nrow) (threadRows a.nrow a.nthreads) (sched2 i)) :
    ((a.init ∉ ["random", "forgy", "kmeanspp", "none"] ∨ a.dist ∉ ["eucl", "cos", "taxi", "sqeucl"]) →
      kmeans dist big c rng sched1 sched2 a = .error .throws) ∧
    ∀ it met, getInit a.init = .ok it → getDist a.dist = .ok met →
      (it = .plusplus → Seedable (dist met) big (matRows m) a.nrow) →
      (∀ c0 tr, StartsAt it (dist met) (matRows m) a.nrow rng (givenCents given) c0 →
        LloydTrace (dist met) a.nrow (matRows m) c0 tr →
        ∀ i r, r < a.nrow → ∃ c, dist met (matRows m r) ((tr i).cents c) < big) →
      ∃ res, kmeans dist big c rng sched1 sched2 a = .ok res ∧
        Delivers it (dist met) (matRows m) a.nrow rng (givenCents given) a.tol a.maxIters res := by
  constructor
  · intro h
    have hthrow : ∀ s : String, s ∉ ["eucl", "cos", "taxi", "sqeucl"] → getDist s = .error .throws := by
      intro s hs
      simp only [List.mem_cons, List.not_mem_nil, or_false, not_or] at hs
      simp [getDist, hs]
    have hthrow' : ∀ s : String, s ∉ ["random", "forgy", "kmeanspp", "none"] → getInit s = .error .throws := by
      intro s hs
      simp only [List.mem_cons, List.not_mem_nil, or_false, not_or] at hs
      simp [getInit, hs]
    unfold kmeans
    by_cases h1 : a.init ∈ ["random", "forgy", "kmeanspp", "none"]
    · have h2 := h.resolve_left fun hh => hh h1
      cases hi : getInit a.init with
      | error e =>
        exfalso
        simp only [List.mem_cons, List.not_mem_nil, or_false] at h1
        rcases h1 with h1 | h1 | h1 | h1 <;> (rw [h1] at hi; cases hi)
      | ok it => dsimp only; rw [hthrow _ h2]
    · rw [hthrow' _ h1]
  · intro it met hi hm hpp hb
    obtain ⟨ws, el, hrows⟩ := load_ok hc m a hn hnt hcol hlt hsz hst
    obtain ⟨cl, s, e0, es, hstart⟩ := runInit_ok (dist met) big rng (rowsIn ws a.nrow a.nthreads) (matRows m)
      a.nrow a.nthreads hrows hk hn hnt hlt hrng sched1 hc1 it hpp given
    obtain ⟨tr, htr⟩ := trace_exists (dist met) a.nrow (matRows m) s.cltrs.means hk
    have hb' : ∀ tr, LloydTrace (dist met) a.nrow (matRows m) s.cltrs.means tr →
        ∀ i r, r < a.nrow → ∃ c, dist met (rowsIn ws a.nrow a.nthreads r) ((tr i).cents c) < big := by
      intro tr htr i r hr
      rw [hrows r hr]
      exact hb _ tr hstart htr i r hr
    have hrows' : ∀ r, r < a.nrow → matRows m r = rowsIn (n := n) ws a.nrow a.nthreads r := fun r hr => (hrows r hr).symm
    obtain ⟨res, er, hz, _⟩ := C10_C11_run_is_lloyd (dist met) big (rowsIn ws a.nrow a.nthreads) a.nrow a.nthreads a.tol
      a.maxIters s hn hlt hnt sched2 hc2 tr (trace_data hrows' htr) (hb' tr htr)
    refine ⟨res, ?_, s.cltrs.means, hstart, fun h => by rw [hz h]; exact ⟨rfl, rfl⟩, ?_⟩
    · unfold kmeans
      rw [hi]
      dsimp only
      rw [hm]
      dsimp only
      rw [hgiven, e0]
      dsimp only
      rw [el]
      dsimp only
      rw [es]
      exact er
    · intro hpos tr' htr'
      obtain ⟨res', er', _, h2⟩ := C10_C11_run_is_lloyd (dist met) big (rowsIn ws a.nrow a.nthreads) a.nrow a.nthreads
        a.tol a.maxIters s hn hlt hnt sched2 hc2 tr' (trace_data hrows' htr') (hb' tr' htr')
      rw [er] at er'
      obtain rfl := Except.ok.inj er'
      exact h2 hpos

/-! ### A call that meets the hypotheses -/

/-- A value is stored as itself. -/
def oneCell (T : Type _) [Inhabited T] : Codec T T := ⟨1, fun x => [x], fun l => l.headD default⟩

theorem oneCell_ok (T : Type _) [Inhabited T] : CodecOk (oneCell T) :=
  ⟨Nat.one_pos, fun _ => rfl, fun _ => rfl⟩

/-- An engine that counts. -/
def counter (R : Type _) [Zero R] : Rng R Nat 2 :=
  ⟨0, fun s => ((2 * s + 1) % 4, s + 1), fun s => (⟨s % 2, Nat.mod_lt _ (by decide)⟩, s + 1), fun s => (0, s + 1)⟩

theorem counter_ok (R : Type _) [Field R] [LinearOrder R] [IsStrictOrderedRing R] : RngOk (counter R) 4 :=
  ⟨fun _ => Nat.mod_lt _ (by decide), fun _ => ⟨le_refl _, zero_le_one⟩⟩

/-- The witness of Props/Kmeans.lean as a file of four values; every metric is the absolute difference. -/
def demoCall (init : String) (centers : Option (List ℚ)) (maxIters : Nat) : Call ℚ ℚ :=
  ⟨.file [0, 1, 10, 12], 4, maxIters, 2, centers, init, -1, "taxi"⟩

/-- What the caller sees. -/
structure SeenCall where
  iters : Nat
  assign : List (Option (Fin 2))
  cents : List ℚ
  deriving DecidableEq

/-- Run it: iterations, assignment and centroids. -/
def showCall (init : String) (centers : Option (List ℚ)) (maxIters : Nat) :
    Res SeenCall :=
  (kmeans (k := 2) (n := 1) (fun _ => demoDist) 1000 (oneCell ℚ) (counter ℚ) demoSched demoSched
    (demoCall init centers maxIters)).map fun x => ⟨x.iters, (List.range 4).map x.state.assign,
      (List.finRange 2).map fun c => x.state.cltrs.means c 0⟩

/-- The four initialisations from the same engine: the centres 0 and 1 that are given, rows 1 and 3 for Forgy,
the even and the odd rows for the random partition, row 1 and then row 0 for k-means++ (the draw is 0).  Given
centres are ignored unless the initialisation is `none`. -/
example : showCall "none" (some [0, 1]) 0 = .ok ⟨0, [none, none, none, none], [0, 1]⟩ ∧
    showCall "forgy" (some [0, 1]) 0 = .ok ⟨0, [none, none, none, none], [1, 12]⟩ ∧
    showCall "random" none 0 = .ok ⟨0, [some 0, some 1, some 0, some 1], [5, 13/2]⟩ ∧
    showCall "kmeanspp" none 0 = .ok ⟨0, [some 1, some 0, some 0, some 0], [1, 0]⟩ ∧
    showCall "none" (some [0, 1]) 100 = .ok ⟨3, [some 0, some 0, some 1, some 1], [1/2, 11]⟩ ∧
    showCall "kmeans++" none 100 = .error .throws := by
  decide +kernel

/-! ### Bounded data -/

theorem abs_memberMean_le {N : Nat} {data : Nat → Row ℝ n} {X : ℝ} (hX : 0 ≤ X)
    (h : ∀ r, r < N → ∀ j, |data r j| ≤ X) (a : Nat → Option (Fin k)) (c : Fin k) (j : Fin n) :
    |memberMean N data a c j| ≤ X := by
  unfold memberMean
  split
  · simpa using hX
  · rename_i h0
    have hpos : (0 : ℝ) < (Spec.count N a c : ℝ) := by exact_mod_cast Nat.pos_of_ne_zero h0
    rw [abs_div, abs_of_pos hpos, div_le_iff₀ hpos]
    unfold memberSum
    refine (Finset.abs_sum_le_sum_abs _ _).trans ?_
    refine (Finset.sum_le_card_nsmul _ _ X fun r hr => h r (Finset.mem_range.1 (Finset.mem_filter.1 hr).1) j).trans ?_
    rw [nsmul_eq_mul, mul_comm]
    exact le_refl _

theorem start_bounded {it : InitT} {dist : Row ℝ n → Row ℝ n → ℝ} {data : Nat → Row ℝ n} {N : Nat}
    {rng : Rng ℝ S k} {given : Option (Fin k → Row ℝ n)} {c0 : Fin k → Row ℝ n} {X : ℝ} (hX : 0 ≤ X)
    (h : ∀ r, r < N → ∀ j, |data r j| ≤ X) (hg : ∀ g, given = some g → ∀ c j, |g c j| ≤ X)
    (hrng : RngOk rng N) (hs : StartsAt it dist data N rng given c0) (c : Fin k) (j : Fin n) : |c0 c j| ≤ X := by
  cases it with
  | none =>
    obtain ⟨h1, h2⟩ := hs
    cases hgv : given with
    | none => rw [h2 hgv c j]; simpa using hX
    | some g => rw [h1 g hgv]; exact hg g hgv c j
  | forgy =>
    obtain ⟨r, hr, _, e⟩ := hs c
    rw [e]; exact h r hr j
  | random =>
    obtain ⟨a, _, e⟩ := hs
    rw [e]; exact abs_memberMean_le hX h a c j
  | plusplus =>
    obtain ⟨h1, h2⟩ := hs c
    rcases Nat.eq_zero_or_pos c.val with h0 | h0
    · rw [h1 h0]; exact h _ (hrng.row _) j
    · obtain ⟨r, d, u, e, _, _, hsm⟩ := h2 h0
      rw [e]; exact h r hsm.1 j

theorem trace_bounded {dist : Row ℝ n → Row ℝ n → ℝ} {data : Nat → Row ℝ n} {N : Nat} {c0 : Fin k → Row ℝ n}
    {tr : Nat → Snap ℝ k n} {X : ℝ} (hX : 0 ≤ X) (h : ∀ r, r < N → ∀ j, |data r j| ≤ X)
    (h0 : ∀ c j, |c0 c j| ≤ X) (ht : LloydTrace dist N data c0 tr) (i : Nat) (c : Fin k) (j : Fin n) :
    |(tr i).cents c j| ≤ X := by
  cases i with
  | zero => rw [ht.cents]; exact h0 c j
  | succ i => rw [(ht.step i).means c j]; exact abs_memberMean_le hX h _ c j

/-- The three metrics without a division stay below `big` on bounded rows. -/
theorem realDist_lt {big X : ℝ} (h1 : 1 ≤ big) (hl : n * (2 * X) < big) (hq : n * (2 * X) ^ 2 < big)
    {met : Dist.Metric} (hm : met ≠ .cos) {x y : Row ℝ n} (hx : ∀ j, |x j| ≤ X) (hy : ∀ j, |y j| ≤ X) :
    0 ≤ realDist big met x y ∧ realDist big met x y < big := by
  have hd : ∀ j, |x j - y j| ≤ 2 * X := fun j => by
    have := abs_sub (x j) (y j)
    linarith [hx j, hy j]
  have hsq : ∑ j, (x j - y j) ^ 2 < big := by
    refine lt_of_le_of_lt (Finset.sum_le_card_nsmul _ _ ((2 * X) ^ 2) fun j _ => ?_) (by simpa using hq)
    rw [← sq_abs]
    exact pow_le_pow_left₀ (abs_nonneg _) (hd j) 2
  have hnn : 0 ≤ ∑ j, (x j - y j) ^ 2 := Finset.sum_nonneg fun j _ => sq_nonneg _
  unfold realDist
  cases met with
  | cos => exact absurd rfl hm
  | eucl =>
    rw [(Dist.C36_dispatch x y).1, Option.getD_some]
    refine ⟨Real.sqrt_nonneg _, ?_⟩
    rw [Real.sqrt_lt' (by linarith)]
    nlinarith
  | sqeucl =>
    rw [(Dist.C36_dispatch x y).2.1, Option.getD_some]
    exact ⟨hnn, hsq⟩
  | taxi =>
    rw [(Dist.C36_dispatch x y).2.2.1, Option.getD_some]
    refine ⟨Finset.sum_nonneg fun j _ => abs_nonneg _, ?_⟩
    exact lt_of_le_of_lt (Finset.sum_le_card_nsmul _ _ (2 * X) fun j _ => hd j) (by simpa using hl)

theorem realDist_self {big : ℝ} {met : Dist.Metric} (hm : met ≠ .cos) (x : Row ℝ n) : realDist big met x x = 0 := by
  unfold realDist
  cases met with
  | cos => exact absurd rfl hm
  | eucl => rw [(Dist.C36_dispatch x x).1]; simp
  | sqeucl => rw [(Dist.C36_dispatch x x).2.1]; simp
  | taxi => rw [(Dist.C36_dispatch x x).2.2.1]; simp

/-- **C82, bounded data.**  With the Euclidean, squared Euclidean or taxicab metric nothing has to be assumed
about the run: if all entries of the data and of the given centres are at most `X` in size and `n (2X)` and
`n (2X)²` are below `big`, the call returns the result of Lloyd's algorithm. -/
theorem C82_bounded_data (big X : ℝ) (h1 : 1 ≤ big) (hl : n * (2 * X) < big) (hq : n * (2 * X) ^ 2 < big)
    {c : Codec ℝ B} (hc : CodecOk c) (rng : Rng ℝ S k)
    (sched1 sched2 : Nat → List Nat) (a : Call ℝ B) (m : Nat → Nat → ℝ) (given : Option (Nat → Nat → ℝ))
    (hk : 0 < k) (hcol : 0 < n) (hn : 0 < a.nrow) (hnt : 0 < a.nthreads) (hlt : a.nrow < 4294967296)
    (hsz : a.nrow * n * c.size < 9223372036854775808) (hst : Holds c a.source m a.nrow n)
    (hgiven : a.centers = given.map fun g => rowsFrom g n 0 k) (hrng : RngOk rng a.nrow)
    (hc1 : ∀ i, Complete (effThreads a.nthreads a.nrow) (threadRows a.nrow a.nthreads) (sched1 i))
    (hc2 : ∀ i, Complete (effThreads a.nthreads a.nrow) (threadRows a.nrow a.nthreads) (sched2 i))
    (hm : ∀ r j, r < a.nrow → j < n → |m r j| ≤ X)
    (hg : ∀ g, given = some g → ∀ r j, r < k → j < n → |g r j| ≤ X)
    (it : InitT) (met : Dist.Metric) (hi : getInit a.init = .ok it) (hd : getDist a.dist = .ok met)
    (hcos : met ≠ .cos) :
    ∃ res : Kmeans.Result ℝ k n, kmeans (realDist big) big c rng sched1 sched2 a = .ok res ∧
      Delivers it (realDist big met) (matRows m) a.nrow rng (givenCents given) a.tol a.maxIters res := by
  have hX : 0 ≤ X := (abs_nonneg _).trans (hm 0 0 hn hcol)
  have hm' : ∀ r, r < a.nrow → ∀ j : Fin n, |(matRows m r : Row ℝ n) j| ≤ X := fun r hr j => hm r j.val hr j.isLt
  refine (C82_call (realDist big) big hc rng sched1 sched2 a m given hk hcol hn hnt hlt hsz hst hgiven hrng hc1 hc2).2
    it met hi hd ?_ ?_
  · intro _
    exact ⟨fun q r hq' hr => (realDist_lt h1 hl hq hcos (hm' q hq') (hm' r hr)).1,
      fun r hr => realDist_self hcos _,
      fun q r hq' hr => (realDist_lt h1 hl hq hcos (hm' q hq') (hm' r hr)).2⟩
  · intro c0 tr hs ht i r hr
    have hb0 := start_bounded hX hm' (fun g hgv cc j => by
      cases given with
      | none => cases hgv
      | some g' =>
        rw [← Option.some.inj hgv]
        exact hg g' rfl cc.val j.val cc.isLt j.isLt) hrng hs
    exact ⟨⟨0, hk⟩, (realDist_lt h1 hl hq hcos (hm' r hr) (fun j => trace_bounded hX hm' hb0 ht i ⟨0, hk⟩ j)).2⟩

/-- The four rows as a matrix. -/
def fourRows (r _ : Nat) : ℝ := if r = 0 then 0 else if r = 1 then 1 else if r = 2 then 10 else 12

/-- All hypotheses hold for the call on the four rows with k-means++ and the Euclidean metric. -/
example : ∃ res : Kmeans.Result ℝ 2 1,
    kmeans (realDist 1000) 1000 (oneCell ℝ) (counter ℝ) demoSched demoSched
      ⟨.file ((rowsFrom fourRows 1 0 4).flatMap (oneCell ℝ).enc), 4, 100, 2, none, "kmeanspp", -1, "eucl"⟩ = .ok res ∧
    Delivers .plusplus (realDist 1000 .eucl) (matRows fourRows) 4 (counter ℝ) none (-1) 100 res := by
  have hsch : ∀ i, Complete (effThreads 2 4) (threadRows 4 2) (demoSched i) := by
    intro i t ht
    have : t = 0 ∨ t = 1 := by
      have : effThreads 2 4 = 2 := by decide
      omega
    rcases this with rfl | rfl <;> (unfold demoSched; decide)
  exact C82_bounded_data 1000 12 (by norm_num) (by norm_num) (by norm_num) (oneCell_ok ℝ) (counter ℝ) demoSched demoSched
    ⟨.file ((rowsFrom fourRows 1 0 4).flatMap (oneCell ℝ).enc), 4, 100, 2, none, "kmeanspp", -1, "eucl"⟩ fourRows none
    (by decide) (by decide) (by decide) (by decide) (by decide) (by decide) rfl rfl (counter_ok ℝ) hsch hsch
    (fun r j _ _ => by unfold fourRows; split_ifs <;> norm_num) (fun g h => by cases h) .plusplus .eucl rfl rfl (by decide)

/-! ### `knori -P` -/

/-- **C82, the program.**  `knori -P` refuses `none` without a file of centres, and a data file whose size is
not the one that the numbers of rows and columns imply.  Otherwise, for a file that stores the matrix, it does
what the call with the same options does; a file of centres replaces the initialisation. -/
theorem C82_knori (big X : ℝ) (h1 : 1 ≤ big) (hl : n * (2 * X) < big) (hq : n * (2 * X) ^ 2 < big)
    {c : Codec ℝ B} (hc : CodecOk c) (rng : Rng ℝ S k) (sched1 sched2 : Nat → List Nat)
    (datafn : List B) (centersfn : Option (List B)) (nrow maxIters nthreads : Nat) (init : String) (tol : ℝ)
    (distType : String) (hk : 0 < k) (hcol : 0 < n) (hn : 0 < nrow) (hnt : 0 < nthreads) (hlt : nrow < 4294967296)
    (hsz : nrow * n * c.size < 9223372036854775808) (hszk : k * n * c.size < 18446744073709551616)
    (hrng : RngOk rng nrow)
    (hc1 : ∀ i, Complete (effThreads nthreads nrow) (threadRows nrow nthreads) (sched1 i))
    (hc2 : ∀ i, Complete (effThreads nthreads nrow) (threadRows nrow nthreads) (sched2 i)) :
    (centersfn = none → init = "none" →
      knori (n := n) (realDist big) big c rng sched1 sched2 datafn centersfn nrow maxIters nthreads init tol distType
        = .error .assertFail) ∧
    (¬ (centersfn = none ∧ init = "none") → datafn.length ≠ nrow * n * c.size →
      knori (n := n) (realDist big) big c rng sched1 sched2 datafn centersfn nrow maxIters nthreads init tol distType
        = .error .throws) ∧
    ∀ (m : Nat → Nat → ℝ) (given : Option (Nat → Nat → ℝ)) it met,
      Stores c datafn m nrow n → centersfn = given.map (fun g => (rowsFrom g n 0 k).flatMap c.enc) →
      (∀ r j, r < nrow → j < n → |m r j| ≤ X) →
      (∀ g, given = some g → ∀ r j, r < k → j < n → |g r j| ≤ X) →
      (given.isSome → it = .none) → (given = none → getInit init = .ok it ∧ it ≠ .none) →
      getDist distType = .ok met → met ≠ .cos →
      ∃ res : Kmeans.Result ℝ k n,
        knori (realDist big) big c rng sched1 sched2 datafn centersfn nrow maxIters nthreads init tol distType = .ok res ∧
        Delivers it (realDist big met) (matRows m) nrow rng (givenCents given) tol maxIters res := by
  have hu : u64 (u64 (c.size * nrow) * n) = nrow * n * c.size := by
    have h0 : c.size * nrow * n = nrow * n * c.size := by ring
    rw [u64_mul (by omega), h0]
  refine ⟨?_, ?_, ?_⟩
  · rintro rfl rfl
    unfold knori
    simp
  · intro h hne
    unfold knori
    dsimp only
    rw [if_neg, if_pos (by rw [hu]; exact hne)]
    rintro ⟨h2, h3⟩
    have h4 : centersfn = none := by simpa using h3
    subst h4
    exact h ⟨rfl, by simpa using h2⟩
  · intro m given it met hst hcf hm hg hs hnone hd hcos
    have hlen : datafn.length = nrow * n * c.size := by
      unfold Stores at hst
      rw [hst, length_enc hc, length_rowsFrom]
    unfold knori
    dsimp only
    cases given with
    | none =>
      rw [Option.map_none] at hcf
      subst hcf
      obtain ⟨hi, hit⟩ := hnone rfl
      have hne : init ≠ "none" := by
        rintro rfl
        exact hit (Except.ok.inj hi).symm
      rw [if_neg (by simp [hne]), if_neg (by rw [hu]; simp [hlen])]
      simp only [Option.isSome_none, Bool.false_eq_true, if_false]
      exact C82_bounded_data big X h1 hl hq hc rng sched1 sched2
        ⟨.file datafn, nrow, maxIters, nthreads, none, init, tol, distType⟩ m none hk hcol hn hnt hlt hsz hst rfl hrng
        hc1 hc2 hm hg it met hi hd hcos
    | some g =>
      rw [Option.map_some] at hcf
      subst hcf
      obtain rfl := hs rfl
      rw [if_neg (by simp), if_neg (by rw [hu]; simp [hlen])]
      obtain ⟨y, ey⟩ := read_stored (n := n) hc g k (Nat.mul_pos hk hcol) hszk rfl
      dsimp only
      rw [ey]
      simp only [Option.isSome_some, if_true]
      exact C82_bounded_data big X h1 hl hq hc rng sched1 sched2
        ⟨.file datafn, nrow, maxIters, nthreads, some (rowsFrom g n 0 k), "none", tol, distType⟩ m (some g) hk hcol hn
        hnt hlt hsz hst rfl hrng hc1 hc2 hm hg .none met rfl hd hcos

/-- Centres from a file; the initialisation that is named is not used. -/
example : ∃ res : Kmeans.Result ℝ 2 1,
    knori (realDist 1000) 1000 (oneCell ℝ) (counter ℝ) demoSched demoSched
      ((rowsFrom fourRows 1 0 4).flatMap (oneCell ℝ).enc) (some ((rowsFrom fourRows 1 0 2).flatMap (oneCell ℝ).enc))
      4 100 2 "kmeanspp" (-1) "eucl" = .ok res ∧
    Delivers .none (realDist 1000 .eucl) (matRows fourRows) 4 (counter ℝ) (givenCents (some fourRows)) (-1) 100 res := by
  have hsch : ∀ i, Complete (effThreads 2 4) (threadRows 4 2) (demoSched i) := by
    intro i t ht
    have : t = 0 ∨ t = 1 := by
      have : effThreads 2 4 = 2 := by decide
      omega
    rcases this with rfl | rfl <;> (unfold demoSched; decide)
  have hb : ∀ r j, |fourRows r j| ≤ 12 := fun r j => by unfold fourRows; split_ifs <;> norm_num
  exact (C82_knori 1000 12 (by norm_num) (by norm_num) (by norm_num) (oneCell_ok ℝ) (counter ℝ) demoSched demoSched
    _ _ 4 100 2 "kmeanspp" (-1) "eucl"
    (by decide) (by decide) (by decide) (by decide) (by decide) (by decide) (by decide) (counter_ok ℝ) hsch hsch).2.2
    fourRows (some fourRows) .none .eucl rfl rfl (fun r j _ _ => hb r j) (fun g h r j _ _ => by
      rw [← Option.some.inj h]; exact hb r j) (fun _ => rfl) (fun h => by cases h) rfl (by decide)

end Knor.Driver
