import Verif.Model.FuzzyDriver
import Verif.Props.ScaledDriver
import Verif.Props.Fcm

/-!
# Property C88: a whole fuzzy c-means call

From the names of the options and the caller's data to the returned clustering, and the program `fcm`.
-/

namespace Knor.Driver

open Knor Knor.Spec Knor.Io Knor.Partition Knor.Par Knor.Kmeans Knor.Init

variable {R S B : Type _} {k n : Nat}

theorem step_data [Field R] [LinearOrder R] {root : R → R} {dist : Row R n → Row R n → Option R} {N m : Nat}
    {data data' : Nat → Row R n} (h : ∀ r, r < N → data r = data' r) {y y' : Fin k → Row R n} {u : Nat → Fin k → R}
    (hs : FuzzyStep root dist N m data y u y') : FuzzyStep root dist N m data' y u y' := by
  refine ⟨hs.memb, fun r hr d hd => hs.prop r hr d (by rw [h r hr]; exact hd), fun c j => ?_⟩
  rw [hs.mean c j]
  exact Finset.sum_congr rfl fun r hr => by rw [h r (Finset.mem_range.1 hr)]

/-- A run of the coordinator, from the centres `y`. -/
theorem fuzzy_run [Field R] [LinearOrder R] [IsStrictOrderedRing R] (root : R → R)
    (hroot : ∀ x, 0 < x → 0 < root x) (dist : Row R n → Row R n → Option R)
    (norm : (Fin k → Row R n) → R) (dmin : R) (data : Nat → Row R n) (N nt fuzz : Nat) (tol : R)
    (maxIters : Nat) (s1 s2 : Nat → List Nat) (start : Fcm.Start R S k n) (y : Fin k → Row R n)
    (hfz : 1 ≤ fuzz) (hk : 0 < k) (hn : 0 < N) (hnt : 0 < nt) (hlt : N < 4294967296) (hf : Fcm.Fair N nt s1 s2)
    (hy : Fcm.StartsFrom data N nt start y) (hdm : dmin < (1 / (k : R)) ^ fuzz) :
    ∃ res, Fcm.run root dist norm dmin data N nt fuzz tol maxIters s1 s2 start = .ok res ∧
      (maxIters = 0 → res.iters = 0 ∧ res.state.centers = y) ∧
      (0 < maxIters → FuzzyResult root dist norm N fuzz tol maxIters data y res.iters res.assign res.counts
        res.state.centers) := by
  rcases Nat.eq_zero_or_pos maxIters with rfl | hm
  · refine ⟨⟨0, fun r => Fcm.argmax dmin ((fun _ _ => 0 : Nat → Fin k → R) r),
      Fcm.tally N fun r => Fcm.argmax dmin ((fun _ _ => 0 : Nat → Fin k → R) r), ⟨y, fun _ _ => 0, fun _ _ => 0⟩⟩,
      ?_, fun _ => ⟨rfl, rfl⟩, fun h => absurd h (by omega)⟩
    unfold Fcm.run
    rw [if_neg (by omega), show Fcm.runInit data N nt start = .ok y from hy]
    rfl
  · obtain ⟨res, t, st, e, h0, hl, htr, h1, h2, hmid, hend⟩ := Fcm.C65_stops_when_told root hroot dist norm dmin data
      N nt fuzz tol maxIters s1 s2 start y hk hn hnt hlt hf hm hy
    obtain ⟨t, rfl⟩ : ∃ t', t = t' + 1 := ⟨t - 1, by omega⟩
    have hafter : ∀ i, i < t + 1 → Fcm.After N fuzz data (st i).centers (Fcm.memb root dist data (st i).centers)
        (st (i + 1)) ∧ FuzzyStep root dist N fuzz data (st i).centers (Fcm.memb root dist data (st i).centers)
        (st (i + 1)).centers := by
      intro i hi
      obtain ⟨a, b, ha, hb, hit⟩ := htr i hi
      obtain ⟨s', e', h⟩ := Fcm.iteration_after hroot (dist := dist) (data := data) (fuzz := fuzz) (st i) hk hn hnt hlt
        ha hb
      rw [hit] at e'
      obtain rfl := Except.ok.inj e'
      refine ⟨h, h.memb, ?_, h.mean⟩
      obtain ⟨s', u, e', q1, q2, -⟩ := Fcm.C40_iteration root hroot dist data N nt fuzz a b (st i) hk hn hnt hlt ha hb
      rw [hit] at e'
      obtain rfl := Except.ok.inj e'
      intro r hr d hd c
      have hu : u r = Fcm.memb root dist data (st i).centers r := by
        funext c
        have e1 := (q1 r hr).2.2 c
        rw [h.um r hr c] at e1
        exact (pow_left_inj₀ ((q1 r hr).1 c).le ((h.memb r hr).1 c).le (by omega)).1 e1.symm
      rw [← hu]
      exact q2 r hr d hd c
    have hmv : ∀ i, i < t + 1 → Fcm.movement norm (st (i + 1)) = norm ((st (i + 1)).centers - (st i).centers) := by
      intro i hi
      unfold Fcm.movement
      rw [(hafter i hi).1.prev]
      rfl
    refine ⟨res, e, fun h => absurd h (by omega), fun _ =>
      ⟨t, fun i => (st i).centers, fun i => Fcm.memb root dist data (st i).centers, h0, congrArg Fcm.FState.centers hl, h2,
        fun i hi => (hafter i (by omega)).2, ?_, ?_, ?_, ?_⟩⟩
    · intro i hi
      have := hmid (i + 1) (by omega) (by omega)
      rwa [hmv i (by omega)] at this
    · rw [← hl, hmv t (by omega)] at hend
      rcases hend with h | h
      · exact Or.inl h
      · exact Or.inr h
    · intro r hr
      have hum : ∀ c, res.state.um r c = Fcm.memb root dist data (st t).centers r c ^ fuzz := fun c => by
        rw [← hl]; exact (hafter t (by omega)).1.um r hr c
      have hmb := (hafter t (by omega)).1.memb r hr
      have hk' : (0 : R) < (k : R) := by exact_mod_cast hk
      have hk0 : (0 : R) ≤ 1 / (k : R) := by positivity
      have hc0 : ∃ c0, 1 / (k : R) ≤ Fcm.memb root dist data (st t).centers r c0 := by
        by_contra hcon
        simp only [not_exists, not_le] at hcon
        have : ∑ c, Fcm.memb root dist data (st t).centers r c < ∑ _c : Fin k, 1 / (k : R) :=
          Finset.sum_lt_sum_of_nonempty ⟨⟨0, hk⟩, Finset.mem_univ _⟩ fun c _ => hcon c
        rw [hmb.2] at this
        simp only [Finset.sum_const, Finset.card_univ, Fintype.card_fin, nsmul_eq_mul] at this
        rw [mul_one_div, div_self hk'.ne'] at this
        exact lt_irrefl _ this
      obtain ⟨c0, hc0⟩ := hc0
      obtain ⟨c, hc, hmax, hfirst⟩ := Fcm.argmax_spec dmin (res.state.um r) c0 (by
        rw [hum c0]
        exact lt_of_lt_of_le hdm (pow_le_pow_left₀ hk0 hc0 _))
      have hcmp : ∀ c1 c2, res.state.um r c1 < res.state.um r c2 ↔
          Fcm.memb root dist data (st t).centers r c1 < Fcm.memb root dist data (st t).centers r c2 := by
        intro c1 c2
        rw [hum, hum, pow_lt_pow_iff_left₀ (hmb.1 c1).le (hmb.1 c2).le (by omega)]
      refine ⟨c, ?_, fun c' => ?_, fun c' hc' => (hcmp c' c).1 (hfirst c' hc')⟩
      · rw [← hc]
        exact congrFun (Fcm.assign_eq e hk hy).1 r
      · by_contra hcon
        exact absurd (hmax c') (not_le.2 ((hcmp c c').2 (not_le.1 hcon)))
    · intro c
      rw [(Fcm.assign_eq e hk hy).2, (Fcm.assign_eq e hk hy).1, Fcm.tally_eq]

/-- A result on rows that agree with other rows. -/
theorem result_data [Field R] [LinearOrder R] {root : R → R} {dist : Row R n → Row R n → Option R}
    {norm : (Fin k → Row R n) → R} {N m : Nat} {tol : R} {maxIters : Nat}
    {data data' : Nat → Row R n} (h : ∀ r, r < N → data r = data' r) {y0 : Fin k → Row R n} {iters : Nat}
    {assign : Nat → Nat} {sizes : Nat → Int} {centers : Fin k → Row R n}
    (hr : FuzzyResult root dist norm N m tol maxIters data y0 iters assign sizes centers) :
    FuzzyResult root dist norm N m tol maxIters data' y0 iters assign sizes centers := by
  obtain ⟨t, y, u, h0, hl, h2, hst, h4, h5, h6, h7⟩ := hr
  exact ⟨t, y, u, h0, hl, h2, fun i hi => step_data h (hst i hi), h4, h5, h6, h7⟩

/-- **C88.**  A call whose option names are not among the documented ones throws, and so does a call with the
documented initialisations `random` and `kmeanspp`.  With `forgy` or `none`, every call on an `nrow × n` matrix whose
memberships can be told from zero (`dmin` is the smallest positive number) returns the result of fuzzy c-means on the
rows of the matrix, from the centres that the initialisation promises; with no iteration allowed, these centres. -/
theorem C88_call [Field R] [LinearOrder R] [IsStrictOrderedRing R] (root : R → R)
    (hroot : ∀ x, 0 < x → 0 < root x) (dist : Dist.Metric → Row R n → Row R n → Option R)
    (norm : (Fin k → Row R n) → R) (dmin : R) {c : Codec R B} (hc : CodecOk c) (rng : Rng R S k)
    (s1 s2 : Nat → List Nat) (fuzz : Nat) (a : Call R B) (m : Nat → Nat → R) (given : Option (Nat → Nat → R))
    (hfz : 1 ≤ fuzz) (hk : 0 < k) (hcol : 0 < n) (hn : 0 < a.nrow) (hnt : 0 < a.nthreads)
    (hlt : a.nrow < 4294967296)
    (hsz : a.nrow * n * c.size < 9223372036854775808) (hst : Holds c a.source m a.nrow n)
    (hgiven : a.centers = given.map fun g => rowsFrom g n 0 k) (hrng : RngOk rng a.nrow)
    (hf : Fcm.Fair a.nrow a.nthreads s1 s2) (hdm : dmin < (1 / (k : R)) ^ fuzz) :
    ((a.init ∉ ["forgy", "none"] ∨ a.dist ∉ ["eucl", "cos", "taxi", "sqeucl"]) →
      fcm root dist norm dmin c rng s1 s2 fuzz a = .error .throws) ∧
    ∀ it met, a.init ∈ ["forgy", "none"] → getInit a.init = .ok it → getDist a.dist = .ok met →
      ∃ res y0, fcm root dist norm dmin c rng s1 s2 fuzz a = .ok res ∧
        StartsAt it (fun _ _ => 0) (matRows m) a.nrow rng (givenCents given) y0 ∧
        (a.maxIters = 0 → res.iters = 0 ∧ res.state.centers = y0) ∧
        (0 < a.maxIters → FuzzyResult root (dist met) norm a.nrow fuzz a.tol a.maxIters (matRows m) y0 res.iters
          res.assign res.counts res.state.centers) := by
  obtain ⟨ws, el, hrows⟩ := load_ok hc m a hn hnt hcol hlt hsz hst
  have hcons : ∃ y : Fin k → Row R n, constructFuzzy a.centers = .ok y ∧
      (∀ g, givenCents given = some g → y = g) ∧ (givenCents (k := k) (n := n) given = none → ∀ c j, y c j = 0) := by
    unfold constructFuzzy
    rw [if_neg (by omega), hgiven]
    cases given with
    | none => exact ⟨_, rfl, fun g h => (by cases h), fun _ _ _ => rfl⟩
    | some g =>
      refine ⟨fun c j => g c.val j.val, ?_, fun g' h => Option.some.inj h, fun h => by cases h⟩
      dsimp only [Option.map_some]
      rw [if_neg (by rw [length_rowsFrom]; omega)]
      congr 1
      funext c j
      exact getD_rowsFrom g c.isLt j
  obtain ⟨y, ey, hy1, hy2⟩ := hcons
  have hstart := Fcm.C40_start (k := k) (S := S) (rowsIn (n := n) ws a.nrow a.nthreads) a.nrow a.nthreads hnt hlt
  have hrun : ∀ it met, getInit a.init = .ok it → getDist a.dist = .ok met →
      fcm root dist norm dmin c rng s1 s2 fuzz a = Fcm.run root (dist met) norm dmin (rowsIn ws a.nrow a.nthreads) a.nrow
        a.nthreads fuzz a.tol a.maxIters s1 s2 (fuzzyStart rng y it) := by
    intro it met hi hd
    unfold fcm
    rw [hi]; dsimp only
    rw [hd]; dsimp only
    rw [ey]; dsimp only
    rw [el]
  constructor
  · intro h
    by_cases hd : a.dist ∈ ["eucl", "cos", "taxi", "sqeucl"]
    · have hi := h.resolve_right (fun hh => hh hd)
      obtain ⟨met, hm⟩ : ∃ met, getDist a.dist = .ok met := by
        simp only [List.mem_cons, List.not_mem_nil, or_false] at hd
        rcases hd with h1 | h1 | h1 | h1 <;> (rw [h1]; exact ⟨_, rfl⟩)
      by_cases h1 : a.init ∈ ["random", "kmeanspp"]
      · simp only [List.mem_cons, List.not_mem_nil, or_false] at h1
        have : ∃ it, getInit a.init = .ok it ∧ fuzzyStart (n := n) rng y it = .other := by
          rcases h1 with h1 | h1 <;> (rw [h1]; exact ⟨_, rfl, rfl⟩)
        obtain ⟨it, hit, e⟩ := this
        rw [hrun it met hit hm, e]
        unfold Fcm.run
        rw [if_neg (by omega), hstart.2.2]
      · simp only [List.mem_cons, List.not_mem_nil, or_false, not_or] at h1 hi
        unfold fcm
        rw [show getInit a.init = .error .throws by simp [getInit, h1, hi]]
    · simp only [List.mem_cons, List.not_mem_nil, or_false, not_or] at hd
      have hd' : getDist a.dist = .error .throws := by simp [getDist, hd]
      unfold fcm
      by_cases h1 : a.init ∈ ["random", "forgy", "kmeanspp", "none"]
      · have : ∃ it, getInit a.init = .ok it := by
          simp only [List.mem_cons, List.not_mem_nil, or_false] at h1
          rcases h1 with h1 | h1 | h1 | h1 <;> (rw [h1]; exact ⟨_, rfl⟩)
        obtain ⟨it, hi⟩ := this
        rw [hi]
        dsimp only
        rw [hd']
      · simp only [List.mem_cons, List.not_mem_nil, or_false, not_or] at h1
        rw [show getInit a.init = .error .throws by simp [getInit, h1]]
  · intro it met hmem hi hd
    have hs : ∃ y0, Fcm.StartsFrom (rowsIn ws a.nrow a.nthreads) a.nrow a.nthreads (fuzzyStart rng y it) y0 ∧
        StartsAt it (fun _ _ => 0) (matRows m) a.nrow rng (givenCents given) y0 := by
      simp only [List.mem_cons, List.not_mem_nil, or_false] at hmem
      rcases hmem with h1 | h1
      · rw [h1] at hi
        obtain rfl := Except.ok.inj hi
        obtain ⟨y0, e, h⟩ := hstart.2.1 rng.row rng.seed hrng.row
        refine ⟨y0, e, fun c => ?_⟩
        obtain ⟨r, hr, q1, q2⟩ := h c
        exact ⟨r, hr, q1, by rw [q2, hrows r hr]⟩
      · rw [h1] at hi
        obtain rfl := Except.ok.inj hi
        exact ⟨y, hstart.1 y, hy1, hy2⟩
    obtain ⟨y0, hs1, hs2⟩ := hs
    obtain ⟨res, e, q1, q2⟩ := fuzzy_run root hroot (dist met) norm dmin (rowsIn ws a.nrow a.nthreads) a.nrow a.nthreads
      fuzz a.tol a.maxIters s1 s2 _ y0 hfz hk hn hnt hlt hf hs1 hdm
    exact ⟨res, y0, (hrun it met hi hd).trans e, hs2, q1, fun h => result_data hrows (q2 h)⟩

/-- **C88, the tolerance.**  With a tolerance of at most 0, such as the library's default -1, a call never stops
before `maxIters` iterations, whatever the data is; not even when the centres no longer move. -/
theorem C88_default_tolerance [Field R] [LinearOrder R] [IsStrictOrderedRing R] (root : R → R)
    (hroot : ∀ x, 0 < x → 0 < root x) (dist : Dist.Metric → Row R n → Row R n → Option R)
    (norm : (Fin k → Row R n) → R) (hnorm : ∀ y, 0 ≤ norm y) (dmin : R) {c : Codec R B} (hc : CodecOk c)
    (rng : Rng R S k) (s1 s2 : Nat → List Nat) (fuzz : Nat) (a : Call R B) (m : Nat → Nat → R)
    (given : Option (Nat → Nat → R)) (hfz : 1 ≤ fuzz) (hk : 0 < k) (hcol : 0 < n) (hn : 0 < a.nrow)
    (hnt : 0 < a.nthreads) (hlt : a.nrow < 4294967296)
    (hsz : a.nrow * n * c.size < 9223372036854775808) (hst : Holds c a.source m a.nrow n)
    (hgiven : a.centers = given.map fun g => rowsFrom g n 0 k) (hrng : RngOk rng a.nrow)
    (hf : Fcm.Fair a.nrow a.nthreads s1 s2) (hdm : dmin < (1 / (k : R)) ^ fuzz)
    (hi : a.init ∈ ["forgy", "none"]) (hd : a.dist ∈ ["eucl", "cos", "taxi", "sqeucl"]) (hm : 0 < a.maxIters)
    (htol : a.tol ≤ 0) :
    ∃ res, fcm root dist norm dmin c rng s1 s2 fuzz a = .ok res ∧ res.iters = a.maxIters + 1 := by
  obtain ⟨it, hit⟩ : ∃ it, getInit a.init = .ok it := by
    simp only [List.mem_cons, List.not_mem_nil, or_false] at hi
    rcases hi with h1 | h1 <;> (rw [h1]; exact ⟨_, rfl⟩)
  obtain ⟨met, hmet⟩ : ∃ met, getDist a.dist = .ok met := by
    simp only [List.mem_cons, List.not_mem_nil, or_false] at hd
    rcases hd with h1 | h1 | h1 | h1 <;> (rw [h1]; exact ⟨_, rfl⟩)
  obtain ⟨res, y0, e, -, -, h⟩ := (C88_call root hroot dist norm dmin hc rng s1 s2 fuzz a m given hfz hk hcol hn hnt hlt
    hsz hst hgiven hrng hf hdm).2 it met hi hit hmet
  obtain ⟨t, y, u, -, -, -, -, -, h5, -, -⟩ := h hm
  refine ⟨res, e, ?_⟩
  rcases h5 with ⟨h5, -⟩ | ⟨-, -, h5⟩
  · exact absurd (lt_of_lt_of_le h5 htol) (not_lt.2 (hnorm _))
  · exact h5

/-- **C88, the program.**  `fcm` refuses a data file of the wrong size; without a file of centres it starts with
Forgy's method, and with such a file at the centres in it. -/
theorem C88_program [Field R] [LinearOrder R] [IsStrictOrderedRing R] (root : R → R)
    (hroot : ∀ x, 0 < x → 0 < root x) (dist : Dist.Metric → Row R n → Row R n → Option R)
    (norm : (Fin k → Row R n) → R) (dmin : R) {c : Codec R B} (hc : CodecOk c) (rng : Rng R S k)
    (s1 s2 : Nat → List Nat) (fuzz : Nat) (datafn : List B) (centersfn : Option (List B))
    (nrow maxIters nthreads : Nat) (tol : R) (distType : String)
    (hfz : 1 ≤ fuzz) (hk : 0 < k) (hcol : 0 < n) (hn : 0 < nrow) (hnt : 0 < nthreads) (hlt : nrow < 4294967296)
    (hsz : nrow * n * c.size < 9223372036854775808) (hszk : k * n * c.size < 18446744073709551616)
    (hrng : RngOk rng nrow) (hf : Fcm.Fair nrow nthreads s1 s2) (hdm : dmin < (1 / (k : R)) ^ fuzz) :
    (datafn.length ≠ nrow * n * c.size →
      fcmProg root dist norm dmin c rng s1 s2 fuzz datafn centersfn nrow maxIters nthreads tol distType
        = .error .throws) ∧
    ∀ (m : Nat → Nat → R) (given : Option (Nat → Nat → R)) met,
      Stores c datafn m nrow n → centersfn = given.map (fun g => (rowsFrom g n 0 k).flatMap c.enc) →
      getDist distType = .ok met →
      ∃ res y0, fcmProg root dist norm dmin c rng s1 s2 fuzz datafn centersfn nrow maxIters nthreads tol distType
          = .ok res ∧
        StartsAt (if given.isSome then .none else .forgy) (fun _ _ => 0) (matRows m) nrow rng (givenCents given) y0 ∧
        (maxIters = 0 → res.iters = 0 ∧ res.state.centers = y0) ∧
        (0 < maxIters → FuzzyResult root (dist met) norm nrow fuzz tol maxIters (matRows m) y0 res.iters
          res.assign res.counts res.state.centers) := by
  constructor
  · intro hne
    unfold fcmProg
    exact (program_ok hc datafn centersfn nrow k "forgy" _ hcol hk hsz hszk).2.1 (fun h => absurd h.2 (by decide)) hne
  · intro m given met hst hcf hd
    have hlen : datafn.length = nrow * n * c.size := by
      unfold Stores at hst
      rw [hst, length_enc hc, length_rowsFrom]
    unfold fcmProg
    obtain ⟨p1, p2⟩ := (program_ok hc datafn centersfn nrow k "forgy" (fun init centers =>
      fcm (k := k) (n := n) root dist norm dmin c rng s1 s2 fuzz
        ⟨.file datafn, nrow, maxIters, nthreads, centers, init, tol, distType⟩) hcol hk hsz hszk).2.2 given hlen hcf
    cases given with
    | none =>
      rw [p1 rfl (by decide)]
      exact (C88_call root hroot dist norm dmin hc rng s1 s2 fuzz
        ⟨.file datafn, nrow, maxIters, nthreads, none, "forgy", tol, distType⟩ m none hfz hk hcol hn hnt hlt hsz hst rfl
        hrng hf hdm).2 .forgy met (by simp) rfl hd
    | some g =>
      rw [p2 g rfl]
      exact (C88_call root hroot dist norm dmin hc rng s1 s2 fuzz
        ⟨.file datafn, nrow, maxIters, nthreads, some (rowsFrom g n 0 k), "none", tol, distType⟩ m (some g) hfz hk hcol
        hn hnt hlt hsz hst rfl hrng hf hdm).2 .none met (by simp) rfl hd

/-! ### Calls that meet the hypotheses -/

/-- The distance of the program's default `sqeucl`, over the real numbers. -/
noncomputable def sqReal (x y : Row ℝ n) : Option ℝ := some (sqDist x y)

/-- The Frobenius norm. -/
noncomputable def frob (y : Fin k → Row ℝ n) : ℝ := Real.sqrt (∑ c, ∑ j, y c j ^ 2)

/-- The program `fcm` over the real numbers, with the exponent `m` (2 or more), on the four rows. -/
example (m : Nat) (hm : 2 ≤ m) : ∃ (res : Fcm.Result ℝ 2 1) (y0 : Fin 2 → Row ℝ 1),
    fcmProg (fun x : ℝ => x ^ (1 / ((m : ℝ) - 1))) (fun _ => sqReal) frob 0 (oneCell ℝ) (counter ℝ) demoSched demoSched m
      ((rowsFrom fourRows 1 0 4).flatMap (oneCell ℝ).enc) none 4 100 2 (1 / 1000000) "sqeucl" = .ok res ∧
    StartsAt .forgy (fun _ _ => 0) (matRows fourRows) 4 (counter ℝ) none y0 ∧
    FuzzyResult (fun x : ℝ => x ^ (1 / ((m : ℝ) - 1))) sqReal frob 4 m (1 / 1000000) 100 (matRows fourRows) y0 res.iters
      res.assign res.counts res.state.centers := by
  obtain ⟨res, y0, e, h1, -, h2⟩ := (C88_program (k := 2) (n := 1) (fun x : ℝ => x ^ (1 / ((m : ℝ) - 1)))
    (fun x hx => Real.rpow_pos_of_pos hx _) (fun _ => sqReal) frob 0 (oneCell_ok ℝ) (counter ℝ) demoSched demoSched m
    ((rowsFrom fourRows 1 0 4).flatMap (oneCell ℝ).enc) none 4 100 2 (1 / 1000000) "sqeucl" (by omega) (by decide)
    (by decide) (by decide) (by decide) (by decide) (by decide) (by decide) (counter_ok ℝ)
    (fun i => ⟨two_sched i, two_sched i⟩) (by positivity)).2 fourRows none .sqeucl rfl rfl rfl
  exact ⟨res, y0, e, h1, h2 (by decide)⟩

/-- Run it on an array: iterations, assignment and centres. -/
def showFuzzy (init : String) (centers : Option (List ℚ)) (maxIters : Nat) (tol : ℚ) : Res (Nat × List Nat × List ℚ) :=
  (fcm (k := 2) (n := 1) id (fun _ => Fcm.demoSq) Fcm.demoNorm (1 / 1000) (oneCell ℚ) (counter ℚ) demoSched demoSched 2
    ⟨.array [0, 1, 10, 12], 4, maxIters, 2, centers, init, tol, "sqeucl"⟩).map fun x =>
      (x.iters, (List.range 4).map x.assign, (List.finRange 2).map fun c => x.state.centers c 0)

/-- Forgy takes the rows 1 and 3; given centres are used; the default tolerance runs to the end. -/
example : showFuzzy "forgy" none 0 (-1) = .ok (0, [0, 0, 0, 0], [1, 12]) ∧
    showFuzzy "none" (some [2, 11]) 0 (-1) = .ok (0, [0, 0, 0, 0], [2, 11]) ∧
    (showFuzzy "none" (some [2, 11]) 3 (-1)).map (fun x => (x.1, x.2.1)) = .ok (4, [0, 0, 1, 1]) ∧
    (showFuzzy "none" (some [2, 11]) 3 100).map (fun x => (x.1, x.2.1)) = .ok (1, [0, 0, 1, 1]) ∧
    showFuzzy "random" none 3 (-1) = .error .throws ∧ showFuzzy "kmeanspp" none 3 (-1) = .error .throws := by
  decide +kernel

/-- The hypotheses of the theorem on the tolerance. -/
example : ∃ res : Fcm.Result ℝ 2 1,
    fcm (fun x : ℝ => x ^ (1 / ((2 : ℝ) - 1))) (fun _ => sqReal) frob 0 (oneCell ℝ) (counter ℝ) demoSched demoSched 2
      ⟨.array (rowsFrom fourRows 1 0 4), 4, 100, 2, none, "forgy", -1, "cos"⟩ = .ok res ∧ res.iters = 101 :=
  C88_default_tolerance _ (fun x hx => Real.rpow_pos_of_pos hx _) (fun _ => sqReal) frob (fun _ => Real.sqrt_nonneg _) 0
    (oneCell_ok ℝ) (counter ℝ) demoSched demoSched 2 ⟨.array (rowsFrom fourRows 1 0 4), 4, 100, 2, none, "forgy", -1, "cos"⟩
    fourRows none (by decide) (by decide) (by decide) (by decide) (by decide) (by decide) (by decide) rfl rfl
    (counter_ok ℝ) (fun i => ⟨two_sched i, two_sched i⟩) (by positivity) (by simp) (by simp) (by decide) (by norm_num)

end Knor.Driver
