import Mathlib.Analysis.SpecialFunctions.Pow.Real
import Mathlib.Algebra.Order.Field.Rat
import Mathlib.Tactic.IntervalCases
import Mathlib.Tactic.FinCases
import Verif.Lemmas.Fcm

/-! # Properties C40, C41, C63, C64, C65: fuzzy c-means -/

namespace Knor.Fcm

open Knor Knor.Par Knor.Partition Knor.Kmeans Knor.Spec

variable {R S : Type _} {k n : Nat}

/-- The C++ expression `std::pow(x, 1.0 / (m-1))` is such a root over the real numbers. -/
example (m : Nat) (hm : 2 ≤ m) : IsRoot m fun x : ℝ => x ^ (1 / ((m : ℝ) - 1)) := by
  intro x hx
  refine ⟨Real.rpow_pos_of_pos hx _, ?_⟩
  have h : ((m - 1 : Nat) : ℝ) = (m : ℝ) - 1 := by
    rw [Nat.cast_sub (by omega)]; simp
  have h0 : (m : ℝ) - 1 ≠ 0 := by
    have : (2 : ℝ) ≤ m := by exact_mod_cast hm
    linarith
  rw [← Real.rpow_natCast, ← Real.rpow_mul hx.le, h, one_div, inv_mul_cancel₀ h0, Real.rpow_one]

/-- For `fuzzindex = 2` the exponent is 1. -/
theorem isRoot_two [Field R] [LinearOrder R] : IsRoot 2 (id : R → R) := by
  intro x hx; exact ⟨hx, by simp⟩

/-- The schedules of a run let every worker finish every phase. -/
def Fair (N nt : Nat) (s1 s2 : Nat → List Nat) : Prop :=
  ∀ i, Complete (effThreads nt N) (threadRows N nt) (s1 i) ∧
    Complete (effThreads nt N) (threadRows N nt) (s2 i)

/-- What the state looks like after an iteration that started from the centres `y`. -/
structure After [Field R] [LinearOrder R] (N fuzz : Nat) (data : Nat → Row R n)
    (y : Fin k → Row R n) (u : Nat → Fin k → R) (s : FState R k n) : Prop where
  memb : ∀ r, r < N → Membership (u r)
  um : ∀ r, r < N → ∀ c, s.um r c = u r c ^ fuzz
  mean : ∀ c, WeightedMean N data (fun r => u r c ^ fuzz) (s.centers c)
  prev : s.prev = y

theorem iteration_after [Field R] [LinearOrder R] [IsStrictOrderedRing R] {root : R → R}
    (hroot : ∀ x, 0 < x → 0 < root x)
    {dist : Row R n → Row R n → Option R} {data : Nat → Row R n} {N nt fuzz : Nat}
    {s1 s2 : List Nat} (s : FState R k n) (hk : 0 < k) (hn : 0 < N) (hnt : 0 < nt)
    (hlt : N < 4294967296)
    (hc1 : Complete (effThreads nt N) (threadRows N nt) s1)
    (hc2 : Complete (effThreads nt N) (threadRows N nt) s2) :
    ∃ s', iteration root dist data N nt fuzz s1 s2 s = .ok s' ∧
      After N fuzz data s.centers (memb root dist data s.centers) s' := by
  refine ⟨_, iteration_closed s hn hnt hlt hc1 hc2, ?_, ?_, ?_, rfl⟩
  · intro r _; exact memb_ok hroot hk dist data s.centers r
  · intro r hr c; exact if_pos hr
  · intro c j
    have hp : 0 < ∑ r ∈ Finset.range N, memb root dist data s.centers r c ^ fuzz :=
      Finset.sum_pos (fun r _ => pow_pos ((memb_ok hroot hk dist data s.centers r).1 c) _)
        (by simpa using hn.ne')
    exact div_mul_cancel₀ _ (ne_of_gt hp)

/-- **C40, one iteration.**  Whatever the data, the centres, the metric (NaN included), the number of
threads and the interleaving: the iteration returns; each row's memberships are positive and add up
to 1, the contribution matrix holds their `fuzzindex`-th powers; if the row's distances are positive
numbers its memberships are in the proportion of `(1/distance)^(1/(fuzzindex-1))`; every new centre is
the mean of the rows weighted by the contribution matrix, and so a combination of the rows with
non-negative coefficients adding up to 1. -/
theorem C40_iteration [Field R] [LinearOrder R] [IsStrictOrderedRing R] (root : R → R)
    (hroot : ∀ x, 0 < x → 0 < root x)
    (dist : Row R n → Row R n → Option R) (data : Nat → Row R n) (N nt fuzz : Nat)
    (s1 s2 : List Nat) (s : FState R k n) (hk : 0 < k) (hn : 0 < N) (hnt : 0 < nt)
    (hlt : N < 4294967296)
    (hc1 : Complete (effThreads nt N) (threadRows N nt) s1)
    (hc2 : Complete (effThreads nt N) (threadRows N nt) s2) :
    ∃ (s' : FState R k n) (u : Nat → Fin k → R), iteration root dist data N nt fuzz s1 s2 s = .ok s' ∧
      (∀ r, r < N → (∀ c : Fin k, 0 < u r c) ∧ ∑ c, u r c = 1 ∧ ∀ c, s'.um r c = u r c ^ fuzz) ∧
      (∀ r, r < N → ∀ d : Fin k → R, (∀ c, dist (data r) (s.centers c) = some (d c) ∧ 0 < d c) →
        ∀ c, u r c * ∑ c', root (1 / d c') = root (1 / d c)) ∧
      (∀ c, WeightedMean N data (fun r => s'.um r c) (s'.centers c)) ∧
      ∀ c, ∃ w : Nat → R, (∀ r, r < N → 0 ≤ w r) ∧ ∑ r ∈ Finset.range N, w r = 1 ∧
        ∀ j, s'.centers c j = ∑ r ∈ Finset.range N, w r * data r j := by
  obtain ⟨s', e, h⟩ := iteration_after hroot (dist := dist) (data := data) (fuzz := fuzz) s hk hn hnt
    hlt hc1 hc2
  refine ⟨s', memb root dist data s.centers, e,
    fun r hr => ⟨(h.memb r hr).1, (h.memb r hr).2, h.um r hr⟩, ?_, ?_, ?_⟩
  · intro r _ d hd c
    have he : ∀ c, entry root (dist (data r) (s.centers c)) = root (1 / d c) := by
      intro c
      rw [(hd c).1]
      unfold entry
      simp only
      rw [if_pos (hd c).2]
    unfold memb
    simp only [he]
    have : Nonempty (Fin k) := ⟨c⟩
    exact div_mul_cancel₀ _ (ne_of_gt (Finset.sum_pos
      (fun c _ => hroot _ (by have := (hd c).2; positivity)) Finset.univ_nonempty))
  · intro c j
    have := h.mean c j
    have e1 : ∑ r ∈ Finset.range N, s'.um r c
        = ∑ r ∈ Finset.range N, memb root dist data s.centers r c ^ fuzz :=
      Finset.sum_congr rfl fun r hr => h.um r (Finset.mem_range.1 hr) c
    have e2 : ∑ r ∈ Finset.range N, s'.um r c * data r j
        = ∑ r ∈ Finset.range N, memb root dist data s.centers r c ^ fuzz * data r j :=
      Finset.sum_congr rfl fun r hr => by rw [h.um r (Finset.mem_range.1 hr) c]
    show s'.centers c j * ∑ r ∈ Finset.range N, s'.um r c
      = ∑ r ∈ Finset.range N, s'.um r c * data r j
    rw [e1, e2]
    exact this
  intro c
  have hp : 0 < ∑ r ∈ Finset.range N, memb root dist data s.centers r c ^ fuzz :=
    Finset.sum_pos (fun r hr => pow_pos ((h.memb r (Finset.mem_range.1 hr)).1 c) _)
      (by simpa using hn.ne')
  refine ⟨fun r => memb root dist data s.centers r c ^ fuzz /
    ∑ r ∈ Finset.range N, memb root dist data s.centers r c ^ fuzz, ?_, ?_, ?_⟩
  · intro r hr
    exact div_nonneg (pow_nonneg ((h.memb r hr).1 c).le _) hp.le
  · rw [← Finset.sum_div, div_self (ne_of_gt hp)]
  · intro j
    have := h.mean c j
    rw [eq_comm, ← div_eq_iff (ne_of_gt hp)] at this
    rw [← this, Finset.sum_div]
    exact Finset.sum_congr rfl fun r _ => by ring

/-- The centres a run starts from. -/
def StartsFrom [Zero R] (data : Nat → Row R n) (N nt : Nat) (start : Start R S k n)
    (y : Fin k → Row R n) : Prop :=
  runInit data N nt start = .ok y

theorem forgyLoop_eq [Zero R] (draw : S → Nat × S) (data : Nat → Row R n) (N nt : Nat)
    (l : List (Fin k)) (s : S) (c c' : Clusters R k n)
    (h : Init.forgyLoop draw data N nt l s c = .ok c') :
    forgyLoop draw data N nt l s c.means = .ok c'.means := by
  induction l generalizing s c with
  | nil =>
    unfold Init.forgyLoop at h
    unfold forgyLoop
    injection h with h
    rw [h]
  | cons i l ih =>
    unfold Init.forgyLoop at h
    unfold forgyLoop
    cases hx : Init.thdRow data N nt (draw s).1 with
    | error e => rw [hx] at h; simp at h
    | ok x =>
      rw [hx] at h
      simp only at h ⊢
      exact ih _ _ h

/-- **C40 (start).**  The caller's centres are used as they are; Forgy picks the rows drawn by the
generator; every other initialisation is rejected by an exception. -/
theorem C40_start [Zero R] (data : Nat → Row R n) (N nt : Nat) (hnt : 0 < nt)
    (hlt : N < 4294967296) :
    (∀ y : Fin k → Row R n, runInit (S := S) data N nt (.given y) = .ok y) ∧
    (∀ (draw : S → Nat × S) seed, (∀ s, (draw s).1 < N) →
      ∃ y : Fin k → Row R n, runInit data N nt (.forgy draw seed) = .ok y ∧
        ∀ c, ∃ r, r < N ∧ (Init.outputs draw k seed)[c.val]? = some r ∧ y c = data r) ∧
    runInit (k := k) (S := S) data N nt .other = .error .throws := by
  refine ⟨fun _ => rfl, ?_, rfl⟩
  intro draw seed hd
  obtain ⟨c', e, h1, _⟩ := Init.forgyLoop_spec (k := k) (data := data) draw hnt hlt hd
    (List.finRange k) (List.nodup_finRange k) seed ⟨fun _ _ => 0, fun _ => 0, fun _ => false⟩
  refine ⟨c'.means, forgyLoop_eq draw data N nt _ _ _ _ e, ?_⟩
  intro c
  refine ⟨_, hd _, Init.outputs_get draw k seed c.val c.isLt, h1 c.val c ?_⟩
  rw [List.getElem?_eq_getElem (by simp)]
  simp

/-- `st` lists the states of a run: each is the result of an iteration from the one before, under
some complete interleaving. -/
def Trace [Field R] [LinearOrder R] (root : R → R) (dist : Row R n → Row R n → Option R)
    (data : Nat → Row R n) (N nt fuzz t : Nat) (st : Nat → FState R k n) : Prop :=
  ∀ i, i < t → ∃ s1 s2, Complete (effThreads nt N) (threadRows N nt) s1 ∧
    Complete (effThreads nt N) (threadRows N nt) s2 ∧
    iteration root dist data N nt fuzz s1 s2 (st i) = .ok (st (i + 1))

/-- How far the centres moved in the last iteration. -/
def movement [Field R] (norm : (Fin k → Row R n) → R) (s : FState R k n) : R :=
  norm fun c j => s.centers c j - s.prev c j

theorem loop_trace [Field R] [LinearOrder R] [IsStrictOrderedRing R] {root : R → R}
    (hroot : ∀ x, 0 < x → 0 < root x) {dist : Row R n → Row R n → Option R}
    {norm : (Fin k → Row R n) → R} {data : Nat → Row R n} {N nt fuzz : Nat} {tol : R}
    {maxIters : Nat} {s1 s2 : Nat → List Nat} (hk : 0 < k) (hn : 0 < N) (hnt : 0 < nt)
    (hlt : N < 4294967296) (hf : Fair N nt s1 s2) (hm : 0 < maxIters) :
    ∀ fuel iter (s : FState R k n), 1 ≤ iter → maxIters + 1 ≤ iter + fuel → iter ≤ maxIters + 1 →
    ∃ iters s' t st, loop root dist norm data N nt fuzz tol maxIters s1 s2 fuel iter s
        = .ok (iters, s') ∧ st 0 = s ∧ st t = s' ∧ Trace root dist data N nt fuzz t st ∧
      (∀ i, i + 1 < t → ¬ movement norm (st (i + 1)) < tol) ∧
      ((1 ≤ t ∧ iters + 1 = iter + t ∧ iters ≤ maxIters ∧ movement norm s' < tol) ∨
        (iters = maxIters + 1 ∧ iter + t = maxIters + 1 ∧
          (1 ≤ t → ¬ movement norm s' < tol))) := by
  intro fuel
  induction fuel with
  | zero =>
    intro iter s h1 h2 h3
    exact ⟨iter, s, 0, fun _ => s, rfl, rfl, rfl, fun i hi => absurd hi (by omega),
      fun i hi => absurd hi (by omega), Or.inr ⟨by omega, by omega, fun h => absurd h (by omega)⟩⟩
  | succ fuel ih =>
    intro iter s h1 h2 h3
    unfold loop
    by_cases hi : iter ≤ maxIters
    · rw [if_pos ⟨hi, hm⟩]
      obtain ⟨s', e, -⟩ := iteration_after hroot (dist := dist) (data := data) (fuzz := fuzz) s hk hn
        hnt hlt (hf iter).1 (hf iter).2
      rw [e]
      simp only
      have hstep : ∃ a b, Complete (effThreads nt N) (threadRows N nt) a ∧
          Complete (effThreads nt N) (threadRows N nt) b ∧
          iteration root dist data N nt fuzz a b s = .ok s' :=
        ⟨s1 iter, s2 iter, (hf iter).1, (hf iter).2, e⟩
      by_cases hmv : movement norm s' < tol
      · rw [if_pos (show norm (fun c j => s'.centers c j - s'.prev c j) < tol from hmv)]
        refine ⟨iter, s', 1, fun i => if i = 0 then s else s', rfl, rfl, rfl, ?_, ?_,
          Or.inl ⟨le_refl _, rfl, hi, hmv⟩⟩
        · intro i hi1
          have : i = 0 := by omega
          subst this
          simpa using hstep
        · intro i hi1; omega
      · rw [if_neg (show ¬ norm (fun c j => s'.centers c j - s'.prev c j) < tol from hmv)]
        obtain ⟨iters, s'', t, st, e', h0, hl, htr, hmid, hend⟩ :=
          ih (iter + 1) s' (by omega) (by omega) (by omega)
        refine ⟨iters, s'', t + 1, fun i => if i = 0 then s else st (i - 1), e', rfl, ?_, ?_, ?_, ?_⟩
        · simpa using hl
        · intro i hi1
          rcases Nat.eq_zero_or_pos i with rfl | hp
          · simpa [h0] using hstep
          · obtain ⟨j, rfl⟩ : ∃ j, i = j + 1 := ⟨i - 1, by omega⟩
            simpa using htr j (by omega)
        · intro i hi1
          rcases Nat.eq_zero_or_pos i with rfl | hp
          · simpa [h0] using not_lt.1 hmv
          · obtain ⟨j, rfl⟩ : ∃ j, i = j + 1 := ⟨i - 1, by omega⟩
            simpa using not_lt.1 (hmid j (by omega))
        · rcases hend with ⟨a, b, c, d⟩ | ⟨a, b, c⟩
          · exact Or.inl ⟨by omega, by omega, c, d⟩
          · refine Or.inr ⟨a, by omega, fun _ => ?_⟩
            rcases Nat.eq_zero_or_pos t with rfl | hp
            · rw [← hl, h0]; exact hmv
            · exact c hp
    · rw [if_neg (fun h => hi h.1)]
      exact ⟨iter, s, 0, fun _ => s, rfl, rfl, rfl, fun i hi => absurd hi (by omega),
        fun i hi => absurd hi (by omega), Or.inr ⟨by omega, by omega, fun h => absurd h (by omega)⟩⟩

/-- **C65.**  A run with at least one iteration returns.  Its states form a trace from the start
centres; it stops after the first iteration whose movement (the norm of the difference of the
centres) is below the tolerance and then reports that iteration's number, or else after exactly
`max_iters` iterations, and then it reports `max_iters + 1`. -/
theorem C65_stops_when_told [Field R] [LinearOrder R] [IsStrictOrderedRing R] (root : R → R)
    (hroot : ∀ x, 0 < x → 0 < root x) (dist : Row R n → Row R n → Option R)
    (norm : (Fin k → Row R n) → R) (dmin : R) (data : Nat → Row R n) (N nt fuzz : Nat) (tol : R)
    (maxIters : Nat) (s1 s2 : Nat → List Nat) (start : Start R S k n) (y : Fin k → Row R n)
    (hk : 0 < k) (hn : 0 < N) (hnt : 0 < nt) (hlt : N < 4294967296) (hf : Fair N nt s1 s2)
    (hm : 0 < maxIters) (hy : StartsFrom data N nt start y) :
    ∃ res t st, run root dist norm dmin data N nt fuzz tol maxIters s1 s2 start = .ok res ∧
      (st 0).centers = y ∧ st t = res.state ∧ Trace root dist data N nt fuzz t st ∧
      1 ≤ t ∧ t ≤ maxIters ∧
      (∀ i, 1 ≤ i → i < t → tol ≤ movement norm (st i)) ∧
      ((movement norm res.state < tol ∧ res.iters = t) ∨
        (tol ≤ movement norm res.state ∧ t = maxIters ∧ res.iters = maxIters + 1)) := by
  obtain ⟨iters, s', t, st, e, h0, hl, htr, hmid, hend⟩ := loop_trace hroot (dist := dist)
    (norm := norm) (data := data) (fuzz := fuzz) (tol := tol) hk hn hnt hlt hf hm (maxIters + 1) 1
    ⟨y, fun _ _ => 0, fun _ _ => 0⟩ (le_refl _) (by omega) (by omega)
  refine ⟨⟨iters, fun r => argmax dmin (s'.um r), tally N fun r => argmax dmin (s'.um r), s'⟩, t, st,
    ?_, by rw [h0], hl, htr, ?_, ?_, ?_, ?_⟩
  · unfold run
    rw [if_neg (by omega), show runInit data N nt start = .ok y from hy]
    simp only
    rw [if_pos hm, e]
  · rcases hend with h | h <;> omega
  · rcases hend with h | h <;> omega
  · intro i h1 h2
    obtain ⟨j, rfl⟩ : ∃ j, i = j + 1 := ⟨i - 1, by omega⟩
    exact not_lt.1 (hmid j h2)
  · rcases hend with ⟨a, b, c, d⟩ | ⟨a, b, c⟩
    · exact Or.inl ⟨d, by show iters = t; omega⟩
    · exact Or.inr ⟨not_lt.1 (c (by omega)), by omega, a⟩

/-- **C40.**  After every run with at least one iteration the same holds of what is returned. -/
theorem C40_memberships_and_centres [Field R] [LinearOrder R] [IsStrictOrderedRing R] (root : R → R)
    (hroot : ∀ x, 0 < x → 0 < root x) (dist : Row R n → Row R n → Option R)
    (norm : (Fin k → Row R n) → R) (dmin : R) (data : Nat → Row R n) (N nt fuzz : Nat) (tol : R)
    (maxIters : Nat) (s1 s2 : Nat → List Nat) (start : Start R S k n) (y : Fin k → Row R n)
    (hk : 0 < k) (hn : 0 < N) (hnt : 0 < nt) (hlt : N < 4294967296) (hf : Fair N nt s1 s2)
    (hm : 0 < maxIters) (hy : StartsFrom data N nt start y) :
    ∃ (res : Result R k n) (u : Nat → Fin k → R), run root dist norm dmin data N nt fuzz tol maxIters s1 s2 start = .ok res ∧
      (∀ r, r < N → (∀ c : Fin k, 0 < u r c) ∧ ∑ c, u r c = 1 ∧
        ∀ c, res.state.um r c = u r c ^ fuzz) ∧
      (∀ r, r < N → ∀ d : Fin k → R,
        (∀ c, dist (data r) (res.state.prev c) = some (d c) ∧ 0 < d c) →
        ∀ c, u r c * ∑ c', root (1 / d c') = root (1 / d c)) ∧
      (∀ c, WeightedMean N data (fun r => res.state.um r c) (res.state.centers c)) ∧
      ∀ c, ∃ w : Nat → R, (∀ r, r < N → 0 ≤ w r) ∧ ∑ r ∈ Finset.range N, w r = 1 ∧
        ∀ j, res.state.centers c j = ∑ r ∈ Finset.range N, w r * data r j := by
  obtain ⟨res, t, st, e, -, hl, htr, h1, -, -, -⟩ := C65_stops_when_told root hroot dist norm dmin data
    N nt fuzz tol maxIters s1 s2 start y hk hn hnt hlt hf hm hy
  obtain ⟨a, b, ha, hb, hit⟩ := htr (t - 1) (by omega)
  obtain ⟨s', u, e', h⟩ := C40_iteration root hroot dist data N nt fuzz a b (st (t - 1)) hk hn hnt hlt
    ha hb
  rw [hit] at e'
  injection e' with e'
  rw [Nat.sub_add_cancel h1, hl] at e'
  rw [← e'] at h
  have hprev : res.state.prev = (st (t - 1)).centers := by
    obtain ⟨s2', e2, h2⟩ := iteration_after hroot (dist := dist) (data := data) (fuzz := fuzz)
      (st (t - 1)) hk hn hnt hlt ha hb
    rw [hit] at e2
    injection e2 with e2
    rw [Nat.sub_add_cancel h1, hl] at e2
    rw [e2]
    exact h2.prev
  rw [← hprev] at h
  exact ⟨res, u, e, h⟩

/-- Two rows, two threads, two centres that are not rows: hypotheses are met and the run returns. -/
def demoData : Nat → Row ℚ 1 := fun r _ => if r = 0 then 0 else 10

def demoNorm (d : Fin 2 → Row ℚ 1) : ℚ := |d 0 0| + |d 1 0|

def demoSched : Nat → List Nat := fun _ => [1, 0]

def demoSq (x y : Row ℚ 1) : Option ℚ := some ((x 0 - y 0) * (x 0 - y 0))

theorem demo_fair : Fair 2 2 demoSched demoSched := by
  intro i
  constructor <;>
    (intro t ht; have : t < 2 := ht; unfold demoSched; interval_cases t <;> decide)

def demoStart : Start ℚ Unit 2 1 := .given fun c _ => if c = 0 then 1 else 8

/-- C40, C63 and C65 apply to the demo run. -/
example : ∃ (res : Result ℚ 2 1) (u : Nat → Fin 2 → ℚ),
    run id demoSq demoNorm (1 / 1000) demoData 2 2 2 (1 / 10) 3 demoSched demoSched demoStart
      = .ok res ∧ ∀ r, r < 2 → ∑ c, u r c = 1 := by
  obtain ⟨res, u, e, h, -⟩ := C40_memberships_and_centres id (fun _ h => h) demoSq demoNorm (1 / 1000)
    demoData 2 2 2 (1 / 10) 3 demoSched demoSched demoStart _ (by decide) (by decide)
    (by decide) (by decide) demo_fair (by decide) rfl
  exact ⟨res, u, e, fun r hr => (h r hr).2.1⟩

/-! ## C63: the hard assignment -/

/-- The hard assignment and the sizes of a run that returns. -/
theorem assign_eq [Field R] [LinearOrder R] [IsStrictOrderedRing R] {root : R → R}
    {dist : Row R n → Row R n → Option R} {norm : (Fin k → Row R n) → R} {dmin : R} {data : Nat → Row R n}
    {N nt fuzz : Nat} {tol : R} {maxIters : Nat} {s1 s2 : Nat → List Nat} {start : Start R S k n}
    {y : Fin k → Row R n} {res : Result R k n}
    (e : run root dist norm dmin data N nt fuzz tol maxIters s1 s2 start = .ok res) (hk : 0 < k)
    (hy : StartsFrom data N nt start y) :
    res.assign = (fun r => argmax dmin (res.state.um r)) ∧
      res.counts = tally N fun r => argmax dmin (res.state.um r) := by
  unfold run at e
  rw [if_neg (by omega), show runInit data N nt start = .ok y from hy] at e
  simp only at e
  split at e
  · simp at e
  · injection e with e
    rw [← e]
    exact ⟨rfl, rfl⟩

/-- **C63.**  After a run with at least one iteration, every row whose distances to the centres of the
last E-step are positive numbers is assigned to the first of its nearest centres; every assignment is
a cluster number; the sizes are the numbers of rows assigned.  `dmin` is the value `argmax` starts
from; the hypothesis says that it is below the smallest value a largest membership can have. -/
theorem C63_hard_assignment [Field R] [LinearOrder R] [IsStrictOrderedRing R] (root : R → R)
    (fuzz : Nat) (hfz : 2 ≤ fuzz) (hroot : IsRoot fuzz root) (dist : Row R n → Row R n → Option R)
    (norm : (Fin k → Row R n) → R) (dmin : R) (data : Nat → Row R n) (N nt : Nat) (tol : R)
    (maxIters : Nat) (s1 s2 : Nat → List Nat) (start : Start R S k n) (y : Fin k → Row R n)
    (hk : 0 < k) (hn : 0 < N) (hnt : 0 < nt) (hlt : N < 4294967296) (hf : Fair N nt s1 s2)
    (hm : 0 < maxIters) (hy : StartsFrom data N nt start y) (hdm : dmin < (1 / (k : R)) ^ fuzz) :
    ∃ res, run root dist norm dmin data N nt fuzz tol maxIters s1 s2 start = .ok res ∧
      (∀ r, r < N → ∀ d : Fin k → R,
        (∀ c, dist (data r) (res.state.prev c) = some (d c) ∧ 0 < d c) →
        ∃ c : Fin k, res.assign r = c.val ∧ (∀ c', d c ≤ d c') ∧ ∀ c', c' < c → d c < d c') ∧
      (∀ r, r < N → res.assign r < k) ∧
      (∀ c, res.counts c = (((Finset.range N).filter fun r => res.assign r = c).card : Int)) := by
  have hpos : ∀ x, 0 < x → 0 < root x := fun x hx => (hroot x hx).1
  obtain ⟨res, t, st, e, -, hl, htr, h1, -, -, -⟩ := C65_stops_when_told root hpos dist norm dmin data
    N nt fuzz tol maxIters s1 s2 start y hk hn hnt hlt hf hm hy
  obtain ⟨a, b, ha, hb, hit⟩ := htr (t - 1) (by omega)
  obtain ⟨s', e', h⟩ := iteration_after hpos (dist := dist) (data := data) (fuzz := fuzz) (st (t - 1))
    hk hn hnt hlt ha hb
  rw [hit] at e'
  injection e' with e'
  rw [Nat.sub_add_cancel h1, hl] at e'
  have hres := assign_eq e hk hy
  refine ⟨res, e, ?_, ?_, ?_⟩
  · intro r hr d hd
    have hprev : res.state.prev = (st (t - 1)).centers := by rw [e', h.prev]
    rw [hprev] at hd
    have hw : ∀ c, res.state.um r c
        = (root (1 / d c) / ∑ c', root (1 / d c')) ^ fuzz := by
      intro c
      rw [e', h.um r hr c]
      unfold memb
      have he : ∀ c, entry root (dist (data r) ((st (t - 1)).centers c)) = root (1 / d c) := by
        intro c
        rw [(hd c).1]
        unfold entry
        simp only
        rw [if_pos (hd c).2]
      simp only [he]
    have : Nonempty (Fin k) := ⟨⟨0, hk⟩⟩
    have hs : ∀ c, 0 < root (1 / d c) := fun c => hpos _ (by have := (hd c).2; positivity)
    have hS : 0 < ∑ c', root (1 / d c') := Finset.sum_pos (fun c _ => hs c) Finset.univ_nonempty
    have hsum : ∑ c, root (1 / d c) / ∑ c', root (1 / d c') = 1 := by
      rw [← Finset.sum_div, div_self (ne_of_gt hS)]
    obtain ⟨c0, hc0⟩ : ∃ c0 : Fin k, 1 / (k : R) ≤ root (1 / d c0) / ∑ c', root (1 / d c') := by
      by_contra hno
      push Not at hno
      have : ∑ c, root (1 / d c) / ∑ c', root (1 / d c') < ∑ _c : Fin k, 1 / (k : R) :=
        Finset.sum_lt_sum_of_nonempty Finset.univ_nonempty fun c _ => hno c
      rw [hsum] at this
      simp only [Finset.sum_const, Finset.card_univ, Fintype.card_fin, nsmul_eq_mul] at this
      have hk' : (k : R) ≠ 0 := by exact_mod_cast hk.ne'
      rw [mul_one_div_cancel hk'] at this
      exact lt_irrefl _ this
    have hk0 : (0 : R) ≤ 1 / (k : R) := by positivity
    obtain ⟨c, hc, hmax, hfirst⟩ := argmax_spec dmin (res.state.um r) c0 (by
      rw [hw c0]
      exact lt_of_lt_of_le hdm (pow_le_pow_left₀ hk0 hc0 _))
    have hcmp : ∀ c1 c2, res.state.um r c1 < res.state.um r c2 ↔ d c2 < d c1 := by
      intro c1 c2
      rw [hw, hw, pow_lt_pow_iff_left₀ (div_nonneg (hs _).le hS.le) (div_nonneg (hs _).le hS.le)
        (by omega), div_lt_div_iff_of_pos_right hS, root_anti hroot (hd c1).2 (hd c2).2]
    refine ⟨c, by rw [hres.1]; exact hc, ?_, ?_⟩
    · intro c'
      by_contra hlt'
      exact absurd (hmax c') (not_le.2 ((hcmp c c').2 (not_le.1 hlt')))
    · intro c' hc'
      exact (hcmp c' c).1 (hfirst c' hc')
  · intro r _
    rw [hres.1]
    exact argmax_lt hk _ _
  · intro c
    rw [hres.2, hres.1, tally_eq]

/-- **C63.**  Two runs from the same start centres (C40_start: the same caller's centres or the same
Forgy seed) with different numbers of threads and different interleavings return the same. -/
theorem C63_thread_independent [Field R] [LinearOrder R] [IsStrictOrderedRing R] (root : R → R)
    (dist : Row R n → Row R n → Option R)
    (norm : (Fin k → Row R n) → R) (dmin : R) (data : Nat → Row R n) (N nt nt' fuzz : Nat) (tol : R)
    (maxIters : Nat) (s1 s2 s1' s2' : Nat → List Nat) (start : Start R S k n)
    (y : Fin k → Row R n) (hy : StartsFrom data N nt start y) (hy' : StartsFrom data N nt' start y)
    (hn : 0 < N) (hnt : 0 < nt) (hnt' : 0 < nt') (hlt : N < 4294967296)
    (hf : Fair N nt s1 s2) (hf' : Fair N nt' s1' s2') :
    run root dist norm dmin data N nt fuzz tol maxIters s1 s2 start
      = run root dist norm dmin data N nt' fuzz tol maxIters s1' s2' start := by
  have hloop : ∀ fuel iter (s : FState R k n),
      loop root dist norm data N nt fuzz tol maxIters s1 s2 fuel iter s
        = loop root dist norm data N nt' fuzz tol maxIters s1' s2' fuel iter s := by
    intro fuel
    induction fuel with
    | zero => intro iter s; rfl
    | succ fuel ih =>
      intro iter s
      unfold loop
      rw [iteration_closed s hn hnt hlt (hf iter).1 (hf iter).2,
        iteration_closed s hn hnt' hlt (hf' iter).1 (hf' iter).2]
      simp only [ih]
  unfold run
  rw [show runInit data N nt start = .ok y from hy, show runInit data N nt' start = .ok y from hy']
  simp only [hloop]

/-- Row 0 of the demo is nearest to centre 0 and row 1 to centre 1, with one thread as with two. -/
example : ∃ res : Result ℚ 2 1,
    run id demoSq demoNorm (1 / 1000) demoData 2 2 2 (1 / 10) 3 demoSched demoSched demoStart
      = .ok res ∧ (∀ r, r < 2 → res.assign r < 2) ∧
    run id demoSq demoNorm (1 / 1000) demoData 2 1 2 (1 / 10) 3 (fun _ => [0, 0]) (fun _ => [0, 0])
      demoStart = .ok res := by
  obtain ⟨res, e, -, h, -⟩ := C63_hard_assignment id 2 (by decide) isRoot_two demoSq demoNorm (1 / 1000)
    demoData 2 2 (1 / 10) 3 demoSched demoSched demoStart _ (by decide) (by decide) (by decide)
    (by decide) demo_fair (by decide) rfl (by decide +kernel)
  refine ⟨res, e, h, ?_⟩
  rw [← e]
  refine (C63_thread_independent id demoSq demoNorm (1 / 1000) demoData 2 2 1 2 (1 / 10) 3 demoSched
    demoSched _ _ demoStart _ rfl rfl (by decide) (by decide) (by decide) (by decide) demo_fair ?_).symm
  intro i
  constructor <;> (intro t ht; have : t < 1 := ht; show _ ≤ List.count t [0, 0]; interval_cases t; decide)

/-! ## C41: rows that coincide with a centre -/

/-- **C41 is violated.**  A row at distance 0 from centre `c` gets the weight 2.2E-16 for it, so *every*
centre whose weight `(1/d)^(1/(fuzzindex-1))` is larger (for `fuzzindex` 2: every centre nearer than
about 4.5E15) gets a larger membership than the centre the row lies on. -/
theorem C41_violated [Field R] [LinearOrder R] [IsStrictOrderedRing R] (root : R → R)
    (hroot : ∀ x, 0 < x → 0 < root x) (dist : Row R n → Row R n → Option R)
    (data : Nat → Row R n) (N nt fuzz : Nat) (hfz : 1 ≤ fuzz)
    (s1 s2 : List Nat) (s : FState R k n) (hn : 0 < N) (hnt : 0 < nt)
    (hlt : N < 4294967296)
    (hc1 : Complete (effThreads nt N) (threadRows N nt) s1)
    (hc2 : Complete (effThreads nt N) (threadRows N nt) s2)
    (r : Nat) (hr : r < N) (c c' : Fin k) (d : R) (h0 : dist (data r) (s.centers c) = some 0)
    (hd : dist (data r) (s.centers c') = some d) (hdp : 0 < d)
    (hnear : 22 / 100000000000000000 < root (1 / d)) :
    ∃ s', iteration root dist data N nt fuzz s1 s2 s = .ok s' ∧ s'.um r c < s'.um r c' := by
  have hk : 0 < k := Nat.lt_of_le_of_lt (Nat.zero_le _) c.isLt
  have : Nonempty (Fin k) := ⟨c⟩
  obtain ⟨s', e, h⟩ := iteration_after hroot (dist := dist) (data := data) (fuzz := fuzz) s hk hn hnt
    hlt hc1 hc2
  refine ⟨s', e, ?_⟩
  rw [h.um r hr, h.um r hr]
  have hS : 0 < ∑ c', entry root (dist (data r) (s.centers c')) :=
    Finset.sum_pos (fun c _ => entry_pos hroot _) Finset.univ_nonempty
  apply pow_lt_pow_left₀ _ ((h.memb r hr).1 c).le (by omega)
  unfold memb
  rw [div_lt_div_iff_of_pos_right hS, h0, hd]
  simp only [entry, lt_irrefl, if_false]
  rw [if_pos hdp]
  exact hnear

/-- What the user sees: rows 0 and 10, started (as Forgy would) with the rows themselves as centres;
the row that *is* centre 0 is reported in cluster 1 and the other way round. -/
example : (match run id demoSq demoNorm (1 / 1000) demoData 2 2 2 (1 / 10) 1 demoSched demoSched
      (S := Unit) (.given fun c _ => if c = 0 then 0 else 10) with
    | .ok res => (res.assign 0, res.assign 1)
    | .error _ => (9, 9)) = (1, 0) := by
  decide +kernel

/-- The hypotheses of the theorem hold in that run. -/
example : ∃ s' : FState ℚ 2 1, iteration id demoSq demoData 2 2 2 [1, 0] [1, 0]
      ⟨fun c _ => if c = 0 then 0 else 10, fun _ _ => 0, fun _ _ => 0⟩ = .ok s' ∧
      s'.um 0 0 < s'.um 0 1 :=
  C41_violated id (fun _ h => h) demoSq demoData 2 2 2 (by decide) _ _ _ (by decide) (by decide)
    (by decide) (demo_fair 1).1 (demo_fair 1).2 0 (by decide) 0 1 100 (by decide +kernel)
    (by decide +kernel) (by decide +kernel) (by decide +kernel)

/-- **C41, what does hold.**  A row on centre `c` gets its largest membership for `c` if every other
centre is so far away that its weight is below 2.2E-16. -/
theorem C41_far_centres_partial [Field R] [LinearOrder R] [IsStrictOrderedRing R] (root : R → R)
    (hroot : ∀ x, 0 < x → 0 < root x) (dist : Row R n → Row R n → Option R)
    (data : Nat → Row R n) (N nt fuzz : Nat) (hfz : 1 ≤ fuzz)
    (s1 s2 : List Nat) (s : FState R k n) (hn : 0 < N) (hnt : 0 < nt)
    (hlt : N < 4294967296)
    (hc1 : Complete (effThreads nt N) (threadRows N nt) s1)
    (hc2 : Complete (effThreads nt N) (threadRows N nt) s2)
    (r : Nat) (hr : r < N) (c : Fin k) (h0 : dist (data r) (s.centers c) = some 0)
    (hfar : ∀ c', c' ≠ c → ∃ d, dist (data r) (s.centers c') = some d ∧ 0 < d ∧
      root (1 / d) < 22 / 100000000000000000) :
    ∃ s', iteration root dist data N nt fuzz s1 s2 s = .ok s' ∧
      ∀ c', c' ≠ c → s'.um r c' < s'.um r c := by
  have hk : 0 < k := Nat.lt_of_le_of_lt (Nat.zero_le _) c.isLt
  have : Nonempty (Fin k) := ⟨c⟩
  obtain ⟨s', e, h⟩ := iteration_after hroot (dist := dist) (data := data) (fuzz := fuzz) s hk hn hnt
    hlt hc1 hc2
  refine ⟨s', e, ?_⟩
  intro c' hne
  obtain ⟨d, hd, hdp, hw⟩ := hfar c' hne
  rw [h.um r hr, h.um r hr]
  have hS : 0 < ∑ c', entry root (dist (data r) (s.centers c')) :=
    Finset.sum_pos (fun c _ => entry_pos hroot _) Finset.univ_nonempty
  apply pow_lt_pow_left₀ _ ((h.memb r hr).1 c').le (by omega)
  unfold memb
  rw [div_lt_div_iff_of_pos_right hS, h0, hd]
  simp only [entry, lt_irrefl, if_false]
  rw [if_pos hdp]
  exact hw

/-- Such centres exist: one at distance 10^20 (squared). -/
example : ∃ s' : FState ℚ 2 1, iteration id demoSq demoData 2 2 2 [1, 0] [1, 0]
      ⟨fun c _ => if c = 0 then 0 else 10000000000, fun _ _ => 0, fun _ _ => 0⟩ = .ok s' ∧
      s'.um 0 1 < s'.um 0 0 := by
  obtain ⟨s', e, h⟩ := C41_far_centres_partial id (fun _ h => h) demoSq demoData 2 2 2 (by decide) _ _
    (⟨fun c _ => if c = 0 then 0 else 10000000000, fun _ _ => 0, fun _ _ => 0⟩ : FState ℚ 2 1)
    (by decide) (by decide) (by decide) (demo_fair 1).1 (demo_fair 1).2 0 (by decide) 0
    (by decide +kernel) (by
      intro c' hc
      have : c' = 1 := by omega
      subst this
      exact ⟨100000000000000000000, by decide +kernel, by decide +kernel, by decide +kernel⟩)
  exact ⟨s', e, h 1 (by decide)⟩

/-! ## C64: the objective -/

/-- The metric is the squared Euclidean distance. -/
def IsSq [Field R] (dist : Row R n → Row R n → Option R) : Prop :=
  ∀ x y, dist x y = some (sqDist x y)

/-- No row lies on a centre. -/
def OffCentre [Field R] (N : Nat) (data : Nat → Row R n) (y : Fin k → Row R n) : Prop :=
  ∀ r, r < N → ∀ c, data r ≠ y c

theorem sqDist_pos [Field R] [LinearOrder R] [IsStrictOrderedRing R] {x y : Row R n} (h : x ≠ y) :
    0 < sqDist x y := by
  unfold sqDist
  refine lt_of_le_of_ne (Finset.sum_nonneg fun _ _ => sq_nonneg _) fun h0 => h ?_
  funext j
  have := (Finset.sum_eq_zero_iff_of_nonneg (fun j _ => sq_nonneg (x j - y j))).1 h0.symm j
    (Finset.mem_univ j)
  rw [sq_eq_zero_iff] at this
  exact sub_eq_zero.1 this

theorem step_descends [Field R] [LinearOrder R] [IsStrictOrderedRing R] {root : R → R}
    {fuzz : Nat} (hfz : 2 ≤ fuzz) (hroot : IsRoot fuzz root)
    {dist : Row R n → Row R n → Option R} (hsq : IsSq dist) {data : Nat → Row R n} {N nt : Nat}
    {s1 s2 : List Nat} {s s' : FState R k n} (hk : 0 < k) (hn : 0 < N) (hnt : 0 < nt)
    (hlt : N < 4294967296)
    (hc1 : Complete (effThreads nt N) (threadRows N nt) s1)
    (hc2 : Complete (effThreads nt N) (threadRows N nt) s2)
    (hit : iteration root dist data N nt fuzz s1 s2 s = .ok s')
    (hoff : OffCentre N data s.centers) (v : Nat → Fin k → R)
    (hv : ∀ r, r < N → (∀ c, 0 ≤ v r c) ∧ ∑ c, v r c = 1) :
    fuzzyCost N fuzz data (memb root dist data s.centers) s'.centers
      ≤ fuzzyCost N fuzz data v s.centers := by
  have hpos : ∀ x, 0 < x → 0 < root x := fun x hx => (hroot x hx).1
  obtain ⟨s'', e, h⟩ := iteration_after hpos (dist := dist) (data := data) (fuzz := fuzz) s hk hn hnt
    hlt hc1 hc2
  rw [hit] at e
  injection e with e
  subst e
  refine le_trans (b := fuzzyCost N fuzz data (memb root dist data s.centers) s.centers) ?_ ?_
  · unfold fuzzyCost
    rw [Finset.sum_comm, Finset.sum_comm (s := Finset.range N)]
    apply Finset.sum_le_sum
    intro c _
    exact mstep_optimal (fun r hr => pow_nonneg ((h.memb r hr).1 c).le _) (h.mean c) _
  · unfold fuzzyCost
    apply Finset.sum_le_sum
    intro r hr
    rw [Finset.mem_range] at hr
    have hd : ∀ c, 0 < sqDist (data r) (s.centers c) := fun c => sqDist_pos (hoff r hr c)
    have hw : ∀ c, memb root dist data s.centers r c = root (1 / sqDist (data r) (s.centers c)) /
        ∑ c', root (1 / sqDist (data r) (s.centers c')) := by
      intro c
      unfold memb
      have he : ∀ c, entry root (dist (data r) (s.centers c))
          = root (1 / sqDist (data r) (s.centers c)) := by
        intro c
        rw [hsq]
        unfold entry
        simp only
        rw [if_pos (hd c)]
      simp only [he]
    simp only [hw]
    exact estep_optimal (by omega) hroot hk hd (hv r hr).1 (hv r hr).2

/-- **C64, one iteration.**  With the squared Euclidean metric and no row on a centre: whatever
memberships `v` one had for the old centres, the new memberships and centres cost at most as much. -/
theorem C64_iteration_partial [Field R] [LinearOrder R] [IsStrictOrderedRing R] (root : R → R)
    (fuzz : Nat) (hfz : 2 ≤ fuzz) (hroot : IsRoot fuzz root)
    (dist : Row R n → Row R n → Option R) (hsq : IsSq dist) (data : Nat → Row R n) (N nt : Nat)
    (s1 s2 : List Nat) (s : FState R k n) (hk : 0 < k) (hn : 0 < N) (hnt : 0 < nt)
    (hlt : N < 4294967296)
    (hc1 : Complete (effThreads nt N) (threadRows N nt) s1)
    (hc2 : Complete (effThreads nt N) (threadRows N nt) s2)
    (hoff : OffCentre N data s.centers) (v : Nat → Fin k → R)
    (hv : ∀ r, r < N → (∀ c, 0 ≤ v r c) ∧ ∑ c, v r c = 1) :
    ∃ s' u, iteration root dist data N nt fuzz s1 s2 s = .ok s' ∧
      (∀ r, r < N → Membership (u r) ∧ ∀ c, s'.um r c = u r c ^ fuzz) ∧
      fuzzyCost N fuzz data u s'.centers ≤ fuzzyCost N fuzz data v s.centers := by
  have hpos : ∀ x, 0 < x → 0 < root x := fun x hx => (hroot x hx).1
  obtain ⟨s', e, h⟩ := iteration_after hpos (dist := dist) (data := data) (fuzz := fuzz) s hk hn hnt
    hlt hc1 hc2
  exact ⟨s', _, e, fun r hr => ⟨h.memb r hr, h.um r hr⟩,
    step_descends hfz hroot hsq hk hn hnt hlt hc1 hc2 e hoff v hv⟩

/-- The cost of a state: its contribution matrix already holds the powers. -/
def stateCost [Field R] (N : Nat) (data : Nat → Row R n) (s : FState R k n) : R :=
  ∑ r ∈ Finset.range N, ∑ c, s.um r c * sqDist (data r) (s.centers c)

/-- **C64, whole run.**  With the squared Euclidean metric the cost of the states of a run never
increases from one iteration to the next, as long as no row lies on a centre. -/
theorem C64_objective_descends_partial [Field R] [LinearOrder R] [IsStrictOrderedRing R]
    (root : R → R) (fuzz : Nat) (hfz : 2 ≤ fuzz) (hroot : IsRoot fuzz root)
    (dist : Row R n → Row R n → Option R) (hsq : IsSq dist) (data : Nat → Row R n) (N nt : Nat)
    (hk : 0 < k) (hn : 0 < N) (hnt : 0 < nt) (hlt : N < 4294967296) (t : Nat)
    (st : Nat → FState R k n) (htr : Trace root dist data N nt fuzz t st)
    (hoff : ∀ i, i < t → OffCentre N data (st i).centers) :
    ∀ i j, 1 ≤ i → i ≤ j → j ≤ t → stateCost N data (st j) ≤ stateCost N data (st i) := by
  have hpos : ∀ x, 0 < x → 0 < root x := fun x hx => (hroot x hx).1
  have hcost : ∀ i, i < t → stateCost N data (st (i + 1))
      = fuzzyCost N fuzz data (memb root dist data (st i).centers) (st (i + 1)).centers := by
    intro i hi
    obtain ⟨a, b, ha, hb, hit⟩ := htr i hi
    obtain ⟨s', e, h⟩ := iteration_after hpos (dist := dist) (data := data) (fuzz := fuzz) (st i)
      hk hn hnt hlt ha hb
    rw [hit] at e
    injection e with e
    unfold stateCost fuzzyCost
    apply Finset.sum_congr rfl
    intro r hr
    apply Finset.sum_congr rfl
    intro c _
    rw [e, h.um r (Finset.mem_range.1 hr) c]
  intro i j h1 hij
  induction j with
  | zero => intro _; omega
  | succ j ih =>
    intro hjt
    rcases Nat.lt_or_ge j i with h | h
    · have : i = j + 1 := by omega
      rw [this]
    · refine le_trans ?_ (ih h (by omega))
      obtain ⟨j', rfl⟩ : ∃ j', j = j' + 1 := ⟨j - 1, by omega⟩
      obtain ⟨a, b, ha, hb, hit⟩ := htr (j' + 1) (by omega)
      rw [hcost (j' + 1) (by omega), hcost j' (by omega)]
      exact step_descends hfz hroot hsq hk hn hnt hlt ha hb hit (hoff (j' + 1) (by omega)) _
        fun r _ => by
          have := memb_ok hpos hk dist data (st j').centers r
          exact ⟨fun c => (this.1 c).le, this.2⟩

theorem demo_sq : IsSq demoSq := by
  intro x y
  simp [demoSq, sqDist, pow_two]

/-- The hypotheses hold in the demo's first iteration. -/
example : ∃ (s' : FState ℚ 2 1) (u : Nat → Fin 2 → ℚ),
    iteration id demoSq demoData 2 2 2 [1, 0] [1, 0]
      ⟨fun c _ => if c = 0 then 1 else 8, fun _ _ => 0, fun _ _ => 0⟩ = .ok s' ∧
    (∀ r, r < 2 → Membership (u r) ∧ ∀ c, s'.um r c = u r c ^ 2) ∧
    fuzzyCost 2 2 demoData u s'.centers ≤ 5 := by
  obtain ⟨s', u, e, h, hc⟩ := C64_iteration_partial id 2 (by decide) isRoot_two demoSq demo_sq demoData
    2 2 [1, 0] [1, 0] (⟨fun c _ => if c = 0 then 1 else 8, fun _ _ => 0, fun _ _ => 0⟩ : FState ℚ 2 1)
    (by decide) (by decide) (by decide) (by decide) (demo_fair 1).1 (demo_fair 1).2
    (by
      intro r hr c heq
      have h1 := congrFun heq 0
      interval_cases r <;> fin_cases c <;> revert h1 <;> decide +kernel)
    (fun r c => if r = c.val then 1 else 0)
    (by
      intro r hr
      interval_cases r
      · exact ⟨by decide +kernel, by decide +kernel⟩
      · exact ⟨by decide +kernel, by decide +kernel⟩)
  exact ⟨s', u, e, h, le_trans hc (by decide +kernel)⟩

/-- **C64 is violated when a row lies on a centre** (as after every Forgy start): rows 0 and 10 with
centres 0 and 10 have cost 0 for the obvious memberships, and the iteration makes it positive. -/
theorem C64_violation :
    let s : FState ℚ 2 1 := ⟨fun c _ => if c = 0 then 0 else 10, fun _ _ => 0, fun _ _ => 0⟩
    let v : Nat → Fin 2 → ℚ := fun r c => if r = c.val then 1 else 0
    fuzzyCost 2 2 demoData v s.centers = 0 ∧
    ∃ s', iteration id demoSq demoData 2 2 2 [1, 0] [1, 0] s = .ok s' ∧
      0 < stateCost 2 demoData s' := by
  refine ⟨by decide +kernel, ?_⟩
  rw [iteration_closed (s1 := [1, 0]) (s2 := [1, 0]) _ (by decide) (by decide) (by decide)
    (demo_fair 1).1 (demo_fair 1).2]
  refine ⟨_, rfl, ?_⟩
  decide +kernel

end Knor.Fcm
