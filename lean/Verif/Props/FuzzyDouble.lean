import Verif.Lemmas.FuzzyNear
import Verif.Props.FuzzyDriver
import Verif.Props.MedoidDouble

/-!
# Property C119: a whole fuzzy c-means call on doubles

C88 is about exact arithmetic.  Here are the call and the program `fcm` on IEEE doubles, with the Euclidean distance.
-/

namespace Knor.Driver

open Knor Knor.Spec Knor.Io Knor.Partition Knor.Par Knor.Kmeans Knor.Init Knor.NearLloyd

section Load

variable {R S B : Type _} {k n : Nat}

/-- What a call does before the run, whatever the numbers are. -/
theorem fcm_reaches [Zero R] [One R] [Add R] [Mul R] [Div R] [Pow R Nat] [NatCast R] [Sub R] [LT R] [DecidableLT R]
    (root : R → R) (dist : Dist.Metric → Row R n → Row R n → Option R) (norm : (Fin k → Row R n) → R) (dmin : R)
    {c : Codec R B} (hc : CodecOk c) (rng : Rng R S k)
    (s1 s2 : Nat → List Nat) (fuzz : Nat) (a : Call R B) (m : Nat → Nat → R) (given : Option (Nat → Nat → R))
    (hk : 0 < k) (hcol : 0 < n) (hn : 0 < a.nrow) (hnt : 0 < a.nthreads) (hlt : a.nrow < 4294967296)
    (hsz : a.nrow * n * c.size < 9223372036854775808) (hst : Holds c a.source m a.nrow n)
    (hgiven : a.centers = given.map fun g => rowsFrom g n 0 k) (hrng : ∀ s, (rng.row s).1 < a.nrow) :
    ((a.init ∉ ["forgy", "none"] ∨ a.dist ∉ ["eucl", "cos", "taxi", "sqeucl"]) →
      fcm root dist norm dmin c rng s1 s2 fuzz a = .error .throws) ∧
    ∃ data : Nat → Row R n, (∀ r, r < a.nrow → data r = matRows m r) ∧
      ∀ it met, a.init ∈ ["forgy", "none"] → getInit a.init = .ok it → getDist a.dist = .ok met →
        ∃ (y0 : Fin k → Row R n) (start : Fcm.Start R S k n),
          fcm root dist norm dmin c rng s1 s2 fuzz a =
            Fcm.run root (dist met) norm dmin data a.nrow a.nthreads fuzz a.tol a.maxIters s1 s2 start ∧
          Fcm.StartsFrom data a.nrow a.nthreads start y0 ∧
          PlainStart it (matRows m) a.nrow rng (givenCents given) y0 := by
  obtain ⟨ws, el, hrows⟩ := load_ok (n := n) hc m a hn hnt hcol hlt hsz hst
  have hcons : ∃ y : Fin k → Row R n, constructFuzzy a.centers = .ok y ∧
      (∀ g, givenCents given = some g → y = g) ∧ (givenCents (k := k) (n := n) given = none → ∀ c j, y c j = 0) := by
    unfold constructFuzzy
    rw [if_neg (by omega), hgiven]
    cases given with
    | none => exact ⟨_, rfl, fun g h => (by cases h), fun _ _ _ => rfl⟩
    | some g =>
      refine ⟨fun c j => g c.val j.val, ?_, fun g' h => Option.some.inj h, fun h => by cases h⟩
      dsimp only [Option.map_some]
      rw [if_neg (by rw [length_rowsFrom]; omega)]
      congr 1
      funext c j
      exact getD_rowsFrom g c.isLt j
  obtain ⟨y, ey, hy1, hy2⟩ := hcons
  have hstart := Fcm.C40_start (k := k) (S := S) (rowsIn (n := n) ws a.nrow a.nthreads) a.nrow a.nthreads hnt hlt
  have hrun : ∀ it met, getInit a.init = .ok it → getDist a.dist = .ok met →
      fcm root dist norm dmin c rng s1 s2 fuzz a = Fcm.run root (dist met) norm dmin (rowsIn ws a.nrow a.nthreads) a.nrow
        a.nthreads fuzz a.tol a.maxIters s1 s2 (fuzzyStart rng y it) := by
    intro it met hi hd
    unfold fcm
    rw [hi]; dsimp only
    rw [hd]; dsimp only
    rw [ey]; dsimp only
    rw [el]
  constructor
  · intro h
    by_cases hd : a.dist ∈ ["eucl", "cos", "taxi", "sqeucl"]
    · have hi := h.resolve_right (fun hh => hh hd)
      obtain ⟨met, hm⟩ : ∃ met, getDist a.dist = .ok met := by
        simp only [List.mem_cons, List.not_mem_nil, or_false] at hd
        rcases hd with h1 | h1 | h1 | h1 <;> (rw [h1]; exact ⟨_, rfl⟩)
      by_cases h1 : a.init ∈ ["random", "kmeanspp"]
      · simp only [List.mem_cons, List.not_mem_nil, or_false] at h1
        have : ∃ it, getInit a.init = .ok it ∧ fuzzyStart (n := n) rng y it = .other := by
          rcases h1 with h1 | h1 <;> (rw [h1]; exact ⟨_, rfl, rfl⟩)
        obtain ⟨it, hit, e⟩ := this
        rw [hrun it met hit hm, e]
        unfold Fcm.run
        rw [if_neg (by omega), hstart.2.2]
      · simp only [List.mem_cons, List.not_mem_nil, or_false, not_or] at h1 hi
        unfold fcm
        rw [show getInit a.init = .error .throws by simp [getInit, h1, hi]]
    · simp only [List.mem_cons, List.not_mem_nil, or_false, not_or] at hd
      have hd' : getDist a.dist = .error .throws := by simp [getDist, hd]
      unfold fcm
      by_cases h1 : a.init ∈ ["random", "forgy", "kmeanspp", "none"]
      · have : ∃ it, getInit a.init = .ok it := by
          simp only [List.mem_cons, List.not_mem_nil, or_false] at h1
          rcases h1 with h1 | h1 | h1 | h1 <;> (rw [h1]; exact ⟨_, rfl⟩)
        obtain ⟨it, hi⟩ := this
        rw [hi]
        dsimp only
        rw [hd']
      · simp only [List.mem_cons, List.not_mem_nil, or_false, not_or] at h1
        rw [show getInit a.init = .error .throws by simp [getInit, h1]]
  · refine ⟨rowsIn (n := n) ws a.nrow a.nthreads, hrows, ?_⟩
    intro it met hmem hi hd
    have hs : ∃ y0, Fcm.StartsFrom (rowsIn ws a.nrow a.nthreads) a.nrow a.nthreads (fuzzyStart rng y it) y0 ∧
        PlainStart it (matRows m) a.nrow rng (givenCents given) y0 := by
      simp only [List.mem_cons, List.not_mem_nil, or_false] at hmem
      rcases hmem with h1 | h1
      · rw [h1] at hi
        obtain rfl := Except.ok.inj hi
        obtain ⟨y0, e, h⟩ := hstart.2.1 rng.row rng.seed hrng
        refine ⟨y0, e, fun c => ?_⟩
        obtain ⟨r, hr, q1, q2⟩ := h c
        exact ⟨r, hr, q1, by rw [q2, hrows r hr]⟩
      · rw [h1] at hi
        obtain rfl := Except.ok.inj hi
        exact ⟨y, hstart.1 y, hy1, hy2⟩
    obtain ⟨y0, hs1, hs2⟩ := hs
    exact ⟨y0, _, hrun it met hi hd, hs1, hs2⟩

end Load

/-- An iteration without rounding (C88), from centres that are not rows, is one of C119. -/
theorem C119_exact {k n : Nat} (hk : 0 < k) {dist : (Fin n → ℝ) → (Fin n → ℝ) → ℝ} {N m : Nat}
    (hN : 0 < N) {data : Nat → Row ℝ n} {y : Fin k → Row ℝ n} {u : Nat → Fin k → ℝ} {y' : Fin k → Row ℝ n}
    (hpos : ∀ r, r < N → ∀ c, 0 < dist (data r) (y c))
    (hs : FuzzyStep (fun x : ℝ => x ^ ((1 : ℝ) / ((m : ℝ) - 1))) (fun x y => some (dist x y)) N m data y u y') :
    NearFuzzyStep (fun _ => True) id dist 0 0 N m data y (fun r c => u r c ^ m) y' := by
  have hu : ∀ r, r < N → ∀ c, u r c = exactWeight m (dist (data r) (y c)) / ∑ c', exactWeight m (dist (data r) (y c')) := by
    intro r hr c
    have h := hs.prop r hr (fun c => dist (data r) (y c)) (fun c => ⟨rfl, hpos r hr c⟩) c
    have he : ∀ c, exactWeight m (dist (data r) (y c)) = (1 / dist (data r) (y c)) ^ ((1 : ℝ) / ((m : ℝ) - 1)) := fun c =>
      if_pos (hpos r hr c)
    have hp : 0 < ∑ c', exactWeight m (dist (data r) (y c')) :=
      Finset.sum_pos (fun c _ => Fcm.exactWeight_pos _ _) ⟨⟨0, hk⟩, Finset.mem_univ _⟩
    rw [eq_div_iff hp.ne', he c]
    simp only [he]
    exact h
  have hS : ∀ c, 0 < ∑ r ∈ Finset.range N, u r c ^ m := fun c =>
    Finset.sum_pos (fun r hr => pow_pos ((hs.memb r (Finset.mem_range.1 hr)).1 c) m) ⟨0, Finset.mem_range.2 hN⟩
  refine ⟨fun r c => dist (data r) (y c), u, fun r hr c => ⟨(hpos r hr c).le, by simp⟩, fun r hr c => ?_,
    fun r hr c => ⟨trivial, pow_nonneg ((hs.memb r hr).1 c).le m, ?_⟩, fun c => ⟨hS c, fun j => ⟨trivial, ?_⟩⟩⟩
  · rw [← hu r hr c, sub_self, abs_zero]
    have := ((hs.memb r hr).1 c).le
    positivity
  · have := ((hs.memb r hr).1 c).le
    simp only [id, sub_self, abs_zero]
    positivity
  · have h := hs.mean c j
    have e : y' c j = (∑ r ∈ Finset.range N, u r c ^ m * data r j) / ∑ r ∈ Finset.range N, u r c ^ m := by
      rw [eq_div_iff (hS c).ne', h]
    simp only [id]
    rw [e, sub_self, abs_zero]
    have h1 : 0 ≤ (∑ r ∈ Finset.range N, u r c ^ m * |data r j|) / ∑ r ∈ Finset.range N, u r c ^ m :=
      div_nonneg (Finset.sum_nonneg fun r hr =>
        mul_nonneg (pow_nonneg ((hs.memb r (Finset.mem_range.1 hr)).1 c).le m) (abs_nonneg _)) (hS c).le
    positivity

/-- One cluster: the mean of the rows 0 and 2. -/
example : NearFuzzyStep (k := 1) (n := 1) (fun _ : ℝ => True) id (fun x y => |x 0 - y 0|) 0 0 2 2
    (fun r _ => 2 * (r : ℝ)) (fun _ _ => 3) (fun _ _ => 1 ^ 2) (fun _ _ => 1) := by
  refine C119_exact (by norm_num) (by norm_num) (fun r hr c => ?_)
    ⟨fun r hr => ⟨fun c => by norm_num, by simp⟩, fun r hr d hd c => ?_, fun c j => ?_⟩
  · have : r = 0 ∨ r = 1 := by omega
    rcases this with rfl | rfl <;> norm_num
  · rw [Fin.sum_univ_one, Subsingleton.elim c 0, one_mul]
  · norm_num [Finset.sum_range_succ]

section Double

variable {R S B : Type _} {k n : Nat} [Zero R] [One R] [Add R] [Sub R] [Mul R] [Div R] [IntCast R] [NatCast R] [LT R]
  [LE R] {fin : R → Prop} {val : R → ℝ} {sqrt abs' : R → R}

omit [Zero R] [One R] [Add R] [Sub R] [Mul R] [Div R] [IntCast R] [NatCast R] [LE R] in
/-- A result on rows that agree with other rows. -/
theorem nearFuzzy_data {dist : (Fin n → ℝ) → (Fin n → ℝ) → ℝ} {γ ζ γm ζm : ℝ} {N m : Nat} {tol : R}
    {maxIters : Nat} {data data' : Nat → Row R n} (h : ∀ r, r < N → data r = data' r) {y0 : Fin k → Row R n} {iters : Nat} {assign : Nat → Nat} {sizes : Nat → Int}
    {centers : Fin k → Row R n}
    (hr : NearFuzzyResult fin val dist γ ζ γm ζm N m tol maxIters data y0 iters assign sizes centers) :
    NearFuzzyResult fin val dist γ ζ γm ζm N m tol maxIters data' y0 iters assign sizes centers := by
  obtain ⟨t, y, w, mv, h0, hl, h2, h3, hst, h4⟩ := hr
  refine ⟨t, y, w, mv, h0, hl, h2, h3, fun i hi => ?_, h4⟩
  obtain ⟨d, v, q1, q2, q3, q4⟩ := hst i hi
  refine ⟨d, v, fun r hr c => by rw [← h r hr]; exact q1 r hr c, q2, q3, fun c => ⟨(q4 c).1, fun j => ?_⟩⟩
  have e1 : ∑ r ∈ Finset.range N, val (w i r c) * val (data' r j) =
      ∑ r ∈ Finset.range N, val (w i r c) * val (data r j) :=
    Finset.sum_congr rfl fun r hr => by rw [h r (Finset.mem_range.1 hr)]
  have e2 : ∑ r ∈ Finset.range N, val (w i r c) * |val (data' r j)| =
      ∑ r ∈ Finset.range N, val (w i r c) * |val (data r j)| :=
    Finset.sum_congr rfl fun r hr => by rw [h r (Finset.mem_range.1 hr)]
  rw [e1, e2]
  exact (q4 c).2 j

/-- **C119.**  Fuzzy c-means with the Euclidean distance on a matrix of doubles of at most `2^100`, in which some `k+1`
rows are at least `2^-97` apart from each other, with `(2k)^m ≤ 2^200`.  A call whose option names are not among the
documented ones throws, and so does a call with the documented initialisations `random` and `kmeanspp`.  With `forgy` or
`none`, a call never fails, divides by zero or overflows, for every number of threads and interleaving, and returns the
result of fuzzy c-means up to rounding, from the centres that the initialisation promises; with no iteration allowed,
these centres.  Missing: the other metrics, and matrices and exponents outside these bounds. -/
theorem C119_call_partial [DecidableLT R] [Pow R Nat] (hI : IeeeDouble fin val sqrt abs')
    (h1 : fin 1 ∧ val (1 : R) = 1) (cosd : Row R n → Row R n → R) (root : R → R) {c : Codec R B} (hc : CodecOk c)
    (rng : Rng R S k) (dmin : R) (s1 s2 : Nat → List Nat) (fuzz : Nat) (a : Call R B)
    (m : Nat → Nat → R) (given : Option (Nat → Nat → R))
    (hfz : 2 ≤ fuzz) (hroot : RootRounds fin val root fuzz) (hpow : PowRounds fin val fuzz)
    (hk : 0 < k) (hk' : k ≤ 4294967296) (hkm : ((2 * k : Nat) : ℝ) ^ fuzz ≤ 2 ^ (200 : Int))
    (hcol : 0 < n) (hkn : k * n ≤ 4294967296) (hn : 0 < a.nrow) (hnt : 0 < a.nthreads) (hlt : a.nrow < 4294967296)
    (hsz : a.nrow * n * c.size < 9223372036854775808) (hst : Holds c a.source m a.nrow n)
    (hgiven : a.centers = given.map fun g => rowsFrom g n 0 k) (hrng : RngFin fin val rng a.nrow)
    (hf : Fcm.Fair a.nrow a.nthreads s1 s2) (hdm : fin dmin ∧ val dmin ≤ 2 ^ (-1022 : Int))
    (hm : ∀ r j, r < a.nrow → j < n → fin (m r j) ∧ |val (m r j)| ≤ 2 ^ (100 : Int))
    (hg : ∀ g, given = some g → ∀ r j, r < k → j < n → fin (g r j) ∧ |val (g r j)| ≤ 2 ^ (100 : Int))
    (hfar : FarRows k (2 ^ (-97 : Int)) (metricDist .eucl) a.nrow fun r j => val (matRows (n := n) m r j)) :
    ((a.init ∉ ["forgy", "none"] ∨ a.dist ∉ ["eucl", "cos", "taxi", "sqeucl"]) →
      fcm root (fun met x y => some (anyDist sqrt abs' cosd met x y)) (frobenius sqrt) dmin c rng s1 s2 fuzz a
        = .error .throws) ∧
    ∀ it, a.init ∈ ["forgy", "none"] → getInit a.init = .ok it → a.dist = "eucl" →
      ∃ res y0, fcm root (fun met x y => some (anyDist sqrt abs' cosd met x y)) (frobenius sqrt) dmin c rng s1 s2 fuzz a
          = .ok res ∧
        PlainStart it (matRows m) a.nrow rng (givenCents given) y0 ∧
        (a.maxIters = 0 → res.iters = 0 ∧ res.state.centers = y0) ∧
        (0 < a.maxIters → NearFuzzyResult fin val (metricDist .eucl) ((n + 4 : Nat) * 2 ^ (-52 : Int))
          (metricSlack .eucl) ((k * n + 4 : Nat) * 2 ^ (-52 : Int)) (2 ^ (-520 : Int)) a.nrow fuzz a.tol
          a.maxIters (matRows m) y0 res.iters res.assign res.counts
          res.state.centers) := by
  obtain ⟨hthrow, data, hrows, hrun⟩ := fcm_reaches root (fun met x y => some (anyDist sqrt abs' cosd met x y)) (frobenius sqrt)
    dmin hc rng s1 s2 fuzz a m given hk hcol hn hnt hlt hsz hst hgiven hrng.row
  have hcol' : n ≤ 4294967296 := (Nat.le_mul_of_pos_left n hk).trans hkn
  refine ⟨hthrow, fun it hmem hi hd => ?_⟩
  obtain ⟨y0, start, e, hs, hp⟩ := hrun it .eucl hmem hi (by rw [hd]; rfl)
  have hx : ∀ r, r < a.nrow → InBox fin val (2 ^ (100 : Int)) (data r) := fun r hr j => by
    rw [hrows r hr]; exact hm r j.val hr j.isLt
  have hy : ∀ c, InBox fin val (2 ^ (101 : Int)) (y0 c) := by
    have h100 := p_le (show (100 : Int) ≤ 101 by norm_num)
    intro c j
    have key : fin (y0 c j) ∧ |val (y0 c j)| ≤ 2 ^ (100 : Int) := by
      simp only [List.mem_cons, List.not_mem_nil, or_false] at hmem
      rcases hmem with h | h
      · rw [h] at hi
        obtain rfl := Except.ok.inj hi
        obtain ⟨r, hr, -, q⟩ := hp c
        rw [q]
        exact hm r j.val hr j.isLt
      · rw [h] at hi
        obtain rfl := Except.ok.inj hi
        obtain ⟨q1, q2⟩ := hp
        cases given with
        | none =>
          rw [q2 rfl c j, hI.zero.2, abs_zero]
          exact ⟨hI.zero.1, (p_pos _).le⟩
        | some g =>
          rw [q1 _ rfl]
          exact hg g rfl c.val j.val c.isLt j.isLt
    exact ⟨key.1, key.2.trans h100⟩
  have hfar' : FarRows k (2 ^ (-97 : Int)) (metricDist .eucl) a.nrow fun r j => val (data r j) := by
    obtain ⟨q, hq, h⟩ := hfar
    refine ⟨q, hq, fun i i' hii => ?_⟩
    have := h i i' hii
    simp only [hrows _ (hq i), hrows _ (hq i')]
    exact this
  obtain ⟨res, e', h0, hres⟩ := Fcm.run_near (root := root) (m := fuzz) (tol := a.tol)
    (maxIters := a.maxIters) hI h1 cosd hfz hroot hpow hk hk' hkm hcol' hn hnt hlt hx hfar' hkn hf hdm.1 hdm.2 hs hy
  exact ⟨res, y0, e.trans e', hp, h0, fun h => nearFuzzy_data hrows (hres h)⟩

/-- **C119, the program.**  `fcm` refuses a data file of the wrong size; with the Euclidean distance it starts with
Forgy's method, or at the centres in a file, and returns the result of fuzzy c-means up to rounding.  Missing: as above. -/
theorem C119_program_partial [DecidableLT R] [Pow R Nat] (hI : IeeeDouble fin val sqrt abs')
    (h1 : fin 1 ∧ val (1 : R) = 1) (cosd : Row R n → Row R n → R) (root : R → R) {c : Codec R B} (hc : CodecOk c)
    (rng : Rng R S k) (dmin : R) (s1 s2 : Nat → List Nat) (fuzz : Nat)
    (datafn : List B) (centersfn : Option (List B)) (nrow maxIters nthreads : Nat) (tol : R)
    (hfz : 2 ≤ fuzz) (hroot : RootRounds fin val root fuzz) (hpow : PowRounds fin val fuzz)
    (hk : 0 < k) (hk' : k ≤ 4294967296) (hkm : ((2 * k : Nat) : ℝ) ^ fuzz ≤ 2 ^ (200 : Int))
    (hcol : 0 < n) (hkn : k * n ≤ 4294967296) (hn : 0 < nrow) (hnt : 0 < nthreads) (hlt : nrow < 4294967296)
    (hsz : nrow * n * c.size < 9223372036854775808) (hszk : k * n * c.size < 18446744073709551616)
    (hrng : RngFin fin val rng nrow) (hf : Fcm.Fair nrow nthreads s1 s2)
    (hdm : fin dmin ∧ val dmin ≤ 2 ^ (-1022 : Int)) :
    (datafn.length ≠ nrow * n * c.size → ∀ distType,
      fcmProg root (fun met x y => some (anyDist sqrt abs' cosd met x y)) (frobenius sqrt) dmin c rng s1 s2 fuzz datafn centersfn nrow
        maxIters nthreads tol distType = .error .throws) ∧
    ∀ (m : Nat → Nat → R) (given : Option (Nat → Nat → R)),
      Stores c datafn m nrow n → centersfn = given.map (fun g => (rowsFrom g n 0 k).flatMap c.enc) →
      (∀ r j, r < nrow → j < n → fin (m r j) ∧ |val (m r j)| ≤ 2 ^ (100 : Int)) →
      (∀ g, given = some g → ∀ r j, r < k → j < n → fin (g r j) ∧ |val (g r j)| ≤ 2 ^ (100 : Int)) →
      FarRows k (2 ^ (-97 : Int)) (metricDist .eucl) nrow (fun r j => val (matRows (n := n) m r j)) →
      ∃ res y0, fcmProg root (fun met x y => some (anyDist sqrt abs' cosd met x y)) (frobenius sqrt) dmin c rng s1 s2 fuzz datafn
          centersfn nrow maxIters nthreads tol "eucl" = .ok res ∧
        PlainStart (if given.isSome then .none else .forgy) (matRows m) nrow rng (givenCents given) y0 ∧
        (maxIters = 0 → res.iters = 0 ∧ res.state.centers = y0) ∧
        (0 < maxIters → NearFuzzyResult fin val (metricDist .eucl) ((n + 4 : Nat) * 2 ^ (-52 : Int))
          (metricSlack .eucl) ((k * n + 4 : Nat) * 2 ^ (-52 : Int)) (2 ^ (-520 : Int)) nrow fuzz tol maxIters
          (matRows m) y0 res.iters res.assign res.counts
          res.state.centers) := by
  constructor
  · intro hne distType
    unfold fcmProg
    exact (program_ok hc datafn centersfn nrow k "forgy" _ hcol hk hsz hszk).2.1 (fun h => absurd h.2 (by decide)) hne
  · intro m given hst hcf hm hg hfar
    have hlen : datafn.length = nrow * n * c.size := by
      unfold Stores at hst
      rw [hst, length_enc hc, length_rowsFrom]
    unfold fcmProg
    obtain ⟨p1, p2⟩ := (program_ok hc datafn centersfn nrow k "forgy" (fun init centers =>
      fcm (k := k) (n := n) root (fun met x y => some (anyDist sqrt abs' cosd met x y)) (frobenius sqrt) dmin c rng s1 s2 fuzz
        ⟨.file datafn, nrow, maxIters, nthreads, centers, init, tol, "eucl"⟩) hcol hk hsz hszk).2.2 given hlen hcf
    cases given with
    | none =>
      rw [p1 rfl (by decide)]
      exact (C119_call_partial hI h1 cosd root hc rng dmin s1 s2 fuzz
        ⟨.file datafn, nrow, maxIters, nthreads, none, "forgy", tol, "eucl"⟩ m none hfz hroot hpow hk hk' hkm hcol hkn
        hn hnt hlt hsz hst rfl hrng hf hdm hm hg hfar).2 .forgy (by simp) rfl rfl
    | some g =>
      rw [p2 g rfl]
      exact (C119_call_partial hI h1 cosd root hc rng dmin s1 s2 fuzz
        ⟨.file datafn, nrow, maxIters, nthreads, some (rowsFrom g n 0 k), "none", tol, "eucl"⟩ m (some g) hfz hroot hpow
        hk hk' hkm hcol hkn hn hnt hlt hsz hst rfl hrng hf hdm hm hg hfar).2 .none (by simp) rfl rfl

end Double

/-! ### Calls that meet the hypotheses -/

/-- `std::pow` with a natural exponent, correctly rounded. -/
noncomputable instance : Pow Dbl Nat := ⟨fun x m => Dbl.rnd (x.v ^ m)⟩

/-- `std::pow(x, 1/(m-1))`, correctly rounded. -/
noncomputable def dblRoot (m : Nat) (x : Dbl) : Dbl := Dbl.rnd (x.v ^ ((1 : ℝ) / ((m : ℝ) - 1)))

theorem dblRoot_rounds {m : Nat} (hm : 2 ≤ m) : RootRounds Dbl.Fin' Dbl.v (dblRoot m) m := by
  intro x _ hlo hhi
  have hx : 0 < x.v := lt_of_lt_of_le (p_pos _) hlo
  have hm' : (2 : ℝ) ≤ m := by exact_mod_cast hm
  have hp0 : 0 ≤ (1 : ℝ) / ((m : ℝ) - 1) := div_nonneg zero_le_one (by linarith)
  have hp1 : (1 : ℝ) / ((m : ℝ) - 1) ≤ 1 := by rw [div_le_one (by linarith)]; linarith
  have hy0 : 0 < x.v ^ ((1 : ℝ) / ((m : ℝ) - 1)) := Real.rpow_pos_of_pos hx _
  refine ⟨(Dbl.rnd_ok _).1, ?_⟩
  have hup : x.v ^ ((1 : ℝ) / ((m : ℝ) - 1)) ≤ 2 ^ (538 : Int) :=
    (Real.rpow_le_rpow hx.le hhi hp0).trans
      ((Real.rpow_le_rpow_of_exponent_le (one_le_zpow₀ (by norm_num) (by norm_num)) hp1).trans (by rw [Real.rpow_one]))
  have hdn : (2 : ℝ) ^ (-122 : Int) ≤ x.v ^ ((1 : ℝ) / ((m : ℝ) - 1)) := by
    refine le_trans ?_ (Real.rpow_le_rpow (p_pos _).le hlo hp0)
    have := Real.rpow_le_rpow_of_exponent_ge (p_pos (-122)) (zpow_le_one_of_nonpos₀ (by norm_num) (by norm_num)) hp1
    rwa [Real.rpow_one] at this
  have h := nearest_rel (by rw [abs_of_pos hy0]; exact hup.trans ((p_le (by norm_num)).trans p_le_max)) (Dbl.rnd_ok _).2
    (fun h => by
      rw [abs_of_pos hy0] at h
      exact absurd (h.trans_le ((p_le (by norm_num)).trans hdn)) (lt_irrefl _))
  rw [abs_of_pos hy0] at h
  exact h.trans (mul_le_mul_of_nonneg_right (p_le (by norm_num)) hy0.le)

theorem dblPow_rounds {m : Nat} (hm : m ≤ 1023) : PowRounds Dbl.Fin' Dbl.v m := by
  intro x _ h0 h2
  have hy0 : 0 ≤ x.v ^ m := pow_nonneg h0 m
  have hmax : |x.v ^ m| ≤ maxDouble := by
    rw [abs_of_nonneg hy0]
    refine (pow_le_pow_left₀ h0 h2 m).trans ?_
    rw [← zpow_natCast]
    exact (p_le (by exact_mod_cast hm)).trans p_le_max
  have h := nearest_err hmax (Dbl.rnd_ok (x.v ^ m)).2
  rw [abs_of_nonneg hy0] at h
  exact ⟨(Dbl.rnd_ok _).1, nearest_nonneg hy0 (Dbl.rnd_ok _).2, h.trans
    (add_le_add (mul_le_mul_of_nonneg_right (p_le (by norm_num)) hy0) (p_le (by norm_num)))⟩

theorem four_far : FarRows 2 (2 ^ (-97 : Int)) (metricDist .eucl) 4
    fun r j => Dbl.v (matRows (n := 1) (fun r _ => (⟨(r : ℝ)⟩ : Dbl)) r j) := by
  refine ⟨fun i => i.val, fun i => lt_of_lt_of_le i.isLt (by norm_num), fun i i' hii => ?_⟩
  have h1 : (2 : ℝ) ^ (-97 : Int) ≤ 1 := zpow_le_one_of_nonpos₀ (by norm_num) (by norm_num)
  refine h1.trans ?_
  show (1 : ℝ) ≤ √(∑ _j : Fin 1, ((i.val : ℝ) - (i'.val : ℝ)) ^ 2)
  rw [Real.one_le_sqrt, Fin.sum_univ_one]
  fin_cases i <;> fin_cases i' <;> first | exact absurd rfl hii | norm_num

theorem dbl_box (r _j : Nat) (hr : r < 4) : Dbl.Fin' ⟨(r : ℝ)⟩ ∧ |Dbl.v ⟨(r : ℝ)⟩| ≤ 2 ^ (100 : Int) := by
  refine ⟨(dbl_small r (by omega)).1, ?_⟩
  show |(r : ℝ)| ≤ _
  rw [abs_of_nonneg (Nat.cast_nonneg r)]
  have h1 : (r : ℝ) ≤ ((4 : Nat) : ℝ) := by exact_mod_cast hr.le
  have h2 : ((4 : Nat) : ℝ) = 2 ^ (2 : Int) := by norm_num
  rw [h2] at h1
  exact h1.trans (p_le (by norm_num))

theorem four_pow {m : Nat} (hm : m ≤ 100) : ((2 * 2 : Nat) : ℝ) ^ m ≤ 2 ^ (200 : Int) := by
  have h : ((2 * 2 : Nat) : ℝ) ^ m = (2 : ℝ) ^ (2 * m) := by rw [pow_mul]; norm_num
  rw [h, ← zpow_natCast]
  exact p_le (by push_cast; omega)

theorem dbl_dmin : Dbl.Fin' ⟨2 ^ (-1022 : Int)⟩ ∧ Dbl.v ⟨2 ^ (-1022 : Int)⟩ ≤ 2 ^ (-1022 : Int) :=
  ⟨⟨1, -1022, by norm_num, by norm_num, by norm_num, by simp⟩, le_rfl⟩

/-- The rows 0, 1, 2, 3 in a file, with two threads and any exponent from 2 to 100. -/
example (m : Nat) (hm : 2 ≤ m) (hm' : m ≤ 100) :
    ∃ (res : Fcm.Result Dbl 2 1) (y0 : Fin 2 → Row Dbl 1),
    fcm (dblRoot m) (fun met x y => some (anyDist (fun x => Dbl.rnd (√x.v)) (fun x => ⟨|x.v|⟩) (fun _ _ => 0) met x y))
      (frobenius fun x => Dbl.rnd (√x.v)) ⟨2 ^ (-1022 : Int)⟩ (oneCell Dbl) dblRng demoSched demoSched m (dblCall "forgy" "eucl" 5) = .ok res ∧
    PlainStart .forgy (matRows fun r _ => ⟨(r : ℝ)⟩) 4 dblRng none y0 ∧
    NearFuzzyResult Dbl.Fin' Dbl.v (metricDist .eucl) ((1 + 4 : Nat) * 2 ^ (-52 : Int)) (metricSlack .eucl)
      ((2 * 1 + 4 : Nat) * 2 ^ (-52 : Int)) (2 ^ (-520 : Int)) 4 m ⟨0⟩ 5
      (matRows fun r _ => ⟨(r : ℝ)⟩) y0 res.iters res.assign res.counts res.state.centers := by
  obtain ⟨res, y0, e, h1, -, h2⟩ := (C119_call_partial (k := 2) (n := 1) Dbl.ieee dbl_one (fun _ _ => 0) (dblRoot m)
    (oneCell_ok Dbl) dblRng ⟨2 ^ (-1022 : Int)⟩ demoSched demoSched m (dblCall "forgy" "eucl" 5)
    (fun r _ => ⟨(r : ℝ)⟩) none hm (dblRoot_rounds hm) (dblPow_rounds (by omega)) (by norm_num) (by norm_num)
    (four_pow hm') (by norm_num) (by norm_num) (by simp [dblCall]) (by simp [dblCall]) (by simp [dblCall])
    (by simp [dblCall, oneCell])
    (by simp [Holds, dblCall, Stores, oneCell, rowsFrom, rowOf, List.range', List.range_succ]) rfl dblRng_fin
    (fun i => ⟨demo_complete i, demo_complete i⟩) dbl_dmin (fun r j hr _ => dbl_box r j hr) (fun g h => by cases h)
    four_far).2 .forgy (by simp [dblCall]) rfl rfl
  exact ⟨res, y0, e, h1, h2 (by simp [dblCall])⟩

/-- The program on those rows, from the centres 0 and 2 in a file. -/
example (m : Nat) (hm : 2 ≤ m) (hm' : m ≤ 100) (tol : Dbl) :
    ∃ (res : Fcm.Result Dbl 2 1) (y0 : Fin 2 → Row Dbl 1),
    fcmProg (dblRoot m)
      (fun met x y => some (anyDist (fun x => Dbl.rnd (√x.v)) (fun x => ⟨|x.v|⟩) (fun _ _ => 0) met x y))
      (frobenius fun x => Dbl.rnd (√x.v)) ⟨2 ^ (-1022 : Int)⟩ (oneCell Dbl) dblRng demoSched demoSched m
      ((rowsFrom (fun r _ => (⟨(r : ℝ)⟩ : Dbl)) 1 0 4).flatMap (oneCell Dbl).enc)
      (some ((rowsFrom (fun r _ => (⟨((2 * r : Nat) : ℝ)⟩ : Dbl)) 1 0 2).flatMap (oneCell Dbl).enc)) 4 5 2 tol "eucl"
        = .ok res ∧
    (∀ c j, y0 c j = ⟨((2 * c.val : Nat) : ℝ)⟩) ∧
    NearFuzzyResult Dbl.Fin' Dbl.v (metricDist .eucl) ((1 + 4 : Nat) * 2 ^ (-52 : Int)) (metricSlack .eucl)
      ((2 * 1 + 4 : Nat) * 2 ^ (-52 : Int)) (2 ^ (-520 : Int)) 4 m tol 5
      (matRows fun r _ => ⟨(r : ℝ)⟩) y0 res.iters res.assign res.counts res.state.centers := by
  obtain ⟨res, y0, e, ⟨h1, -⟩, -, h2⟩ := (C119_program_partial (k := 2) (n := 1) Dbl.ieee dbl_one (fun _ _ => 0)
    (dblRoot m) (oneCell_ok Dbl) dblRng ⟨2 ^ (-1022 : Int)⟩ demoSched demoSched m
    ((rowsFrom (fun r _ => (⟨(r : ℝ)⟩ : Dbl)) 1 0 4).flatMap (oneCell Dbl).enc) _ 4 5 2 tol hm (dblRoot_rounds hm)
    (dblPow_rounds (by omega)) (by norm_num) (by norm_num) (four_pow hm') (by norm_num) (by norm_num) (by norm_num)
    (by norm_num) (by norm_num) (by simp [oneCell]) (by simp [oneCell]) dblRng_fin
    (fun i => ⟨demo_complete i, demo_complete i⟩) dbl_dmin).2 _ (some fun r _ => ⟨((2 * r : Nat) : ℝ)⟩) rfl rfl
    (fun r j hr _ => dbl_box r j hr)
    (fun g hg r j hr _ => by
      obtain rfl := Option.some.inj hg
      exact dbl_box (2 * r) j (by omega)) four_far
  exact ⟨res, y0, e, fun c j => by rw [h1 _ rfl], h2 (by norm_num)⟩

end Knor.Driver
