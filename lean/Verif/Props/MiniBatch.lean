import Mathlib.Algebra.Order.Field.Rat
import Verif.Model.MiniBatch
import Verif.Spec.Lloyd
import Verif.Lemmas.MiniBatch

/-!
# C32, C33: mini-batch k-means
-/

namespace Knor.MiniBatch

open Knor Knor.Prune Knor.Par Knor.Partition Knor.Spec

variable {R D : Type _} {k n : Nat}

/-! ## C32 -/

/-- **C32.**  One mini-batch iteration, for any data, sample (`draw r ≤ frac` says that row `r` is
sampled), thread count and interleaving: every sampled row has a cluster; the learning rate it is
applied with is one over the number of rows of that cluster and lies in `(0, 1]`; and every new centroid
lies in the convex hull of its previous position and the rows sampled for it. -/
theorem C32_iteration_convex [Field R] [LinearOrder R] [IsStrictOrderedRing R] [LinearOrder D]
    (dist : Row R n → Row R n → D) (big : D) (data : Nat → Row R n) (N nt : Nat) (draw : Nat → R)
    (frac : R) (sched : List Nat) (s s' : PState R D k n)
    (hn : 0 < N) (hnt : 0 < nt) (hlt : N + 8192 < 4294967296)
    (hc : Complete (effThreads nt N) (taskRows N nt) sched)
    (h : iteration dist big data N nt draw frac sched s = .ok s') :
    (∀ r, r < N → draw r ≤ frac → ∃ c, (s'.slots r).assign = some c ∧
      rates N (fun r => (s'.slots r).assign) c
        = 1 / (Spec.count N (fun r => (s'.slots r).assign) c : R) ∧
      0 < rates (R := R) N (fun r => (s'.slots r).assign) c ∧
      rates (R := R) N (fun r => (s'.slots r).assign) c ≤ 1) ∧
    ∀ c, s'.cltrs.means c ∈ convexHull R
      ({s.cltrs.means c} ∪
        {x | ∃ r, r < N ∧ draw r ≤ frac ∧ (s'.slots r).assign = some c ∧ x = data r}) := by
  obtain ⟨_, _, h3, l, hl, hf⟩ := iteration_spec hn hnt hlt hc h
  constructor
  · intro r hr hd
    obtain ⟨c, hc⟩ := h3 r hr hd
    refine ⟨c, hc, ?_, rates_range hr hc⟩
    unfold rates
    rw [tally_eq]
  · intro c
    refine finalizeRows_convex data _ _ c _ (convex_convexHull R _) l ?_ ?_ _ _ ?_ hf
    · intro r hr ha
      obtain ⟨hr1, hr2⟩ := (hl r).1 hr
      exact subset_convexHull R _ (Or.inr ⟨r, hr1, hr2, ha, rfl⟩)
    · intro r hr ha
      have := rates_range (R := R) (a := fun r => (s'.slots r).assign) ((hl r).1 hr).1 ha
      exact ⟨this.1.le, this.2⟩
    · exact subset_convexHull R _ (Or.inl rfl)

/-- **C32.**  In coordinates: any interval that contains a coordinate of the old centroid and of every
row sampled for it contains that coordinate of the new centroid. -/
theorem C32_coordinates [Field R] [LinearOrder R] [IsStrictOrderedRing R] [LinearOrder D]
    (dist : Row R n → Row R n → D) (big : D) (data : Nat → Row R n) (N nt : Nat) (draw : Nat → R)
    (frac : R) (sched : List Nat) (s s' : PState R D k n)
    (hn : 0 < N) (hnt : 0 < nt) (hlt : N + 8192 < 4294967296)
    (hc : Complete (effThreads nt N) (taskRows N nt) sched)
    (h : iteration dist big data N nt draw frac sched s = .ok s') (c : Fin k) (j : Fin n) (lo hi : R)
    (h0 : lo ≤ s.cltrs.means c j ∧ s.cltrs.means c j ≤ hi)
    (hr : ∀ r, r < N → draw r ≤ frac → (s'.slots r).assign = some c →
      lo ≤ data r j ∧ data r j ≤ hi) :
    lo ≤ s'.cltrs.means c j ∧ s'.cltrs.means c j ≤ hi := by
  obtain ⟨_, _, _, l, hl, hf⟩ := iteration_spec hn hnt hlt hc h
  have hconv : Convex R {x : Row R n | lo ≤ x j ∧ x j ≤ hi} := by
    intro x hx y hy a b ha hb hab
    obtain ⟨hx1, hx2⟩ := hx
    obtain ⟨hy1, hy2⟩ := hy
    show lo ≤ a * x j + b * y j ∧ a * x j + b * y j ≤ hi
    constructor
    · calc lo = a * lo + b * lo := by rw [← add_mul, hab, one_mul]
        _ ≤ a * x j + b * y j :=
          add_le_add (mul_le_mul_of_nonneg_left hx1 ha) (mul_le_mul_of_nonneg_left hy1 hb)
    · calc a * x j + b * y j ≤ a * hi + b * hi :=
          add_le_add (mul_le_mul_of_nonneg_left hx2 ha) (mul_le_mul_of_nonneg_left hy2 hb)
        _ = hi := by rw [← add_mul, hab, one_mul]
  refine finalizeRows_convex data _ _ c _ hconv l ?_ ?_ _ _ h0 hf
  · intro r hr' ha
    exact hr r ((hl r).1 hr').1 ((hl r).1 hr').2 ha
  · intro r hr' ha
    have := rates_range (R := R) (a := fun r => (s'.slots r).assign) ((hl r).1 hr').1 ha
    exact ⟨this.1.le, this.2⟩

/-- **C32, whole run.**  After any number of iterations every centroid lies in the convex hull of its
initial position and the data rows. -/
theorem C32_run_convex [Field R] [LinearOrder R] [IsStrictOrderedRing R] [Field D] [LinearOrder D]
    (dist : Row R n → Row R n → D) (big : D) (norm : (Fin k → Row R n) → R) (data : Nat → Row R n)
    (N nt mb : Nat) (draw : Nat → Nat → R) (tol : R) (maxIters : Nat) (sched : Nat → List Nat)
    (schedEnd : List Nat) (s0 : PState R D k n) (res : Nat × PState R D k n)
    (hn : 0 < N) (hnt : 0 < nt) (hlt : N + 8192 < 4294967296)
    (hc : ∀ i, Complete (effThreads nt N) (taskRows N nt) (sched i))
    (h : run dist big norm data N nt mb draw tol maxIters sched schedEnd s0 = .ok res) (c : Fin k) :
    res.2.cltrs.means c ∈
      convexHull R ({s0.cltrs.means c} ∪ {x | ∃ r, r < N ∧ x = data r}) := by
  unfold run at h
  cases hl : loop dist big norm data N nt draw
      (perctg mb (effThreads nt N) N) tol sched maxIters 0 s0 with
  | error e => rw [hl] at h; simp at h
  | ok q =>
    obtain ⟨i, s⟩ := q
    rw [hl] at h
    simp only at h
    have key := (loop_inv hn hnt hlt hc
      (fun s => s.cltrs.means c ∈
        convexHull R ({s0.cltrs.means c} ∪ {x | ∃ r, r < N ∧ x = data r}))
      (by
        intro i s s' hs hi
        exact iteration_hull hn hnt hlt (hc i) hi _ c hs) maxIters 0 s0 (i, s)
      (subset_convexHull R _ (Or.inl rfl)) hl).1
    cases hf : finish dist big data N nt schedEnd s with
    | error e => rw [hf] at h; simp at h
    | ok s' =>
      rw [hf] at h
      simp only [Except.ok.injEq] at h
      subst h
      have : s'.cltrs = s.cltrs := by
        unfold finish at hf
        split at hf
        · simp at hf
        · split at hf
          · simp only [Except.ok.injEq] at hf
            subst hf; rfl
          · simp at hf
      show s'.cltrs.means c ∈ _
      rw [this]
      exact key

/-! ## C33 -/

/-- **C33.**  A mini-batch run with at least one iteration, from any initialisation that leaves every row
with an infinite bound or a cluster, with rows at a distance below `big` from all points of the convex hulls
of a first centroid and the rows: it returns normally after at most `maxIters` iterations, every row
is assigned to a nearest returned centroid, and the sizes are the histogram of the assignment and
sum to the number of rows. -/
theorem C33_final_assignment [Field R] [LinearOrder R] [IsStrictOrderedRing R] [Field D]
    [LinearOrder D] (dist : Row R n → Row R n → D) (big : D) (norm : (Fin k → Row R n) → R)
    (data : Nat → Row R n) (N nt mb : Nat) (draw : Nat → Nat → R) (tol : R) (maxIters : Nat)
    (sched : Nat → List Nat) (schedEnd : List Nat) (s0 : PState R D k n)
    (hn : 0 < N) (hnt : 0 < nt) (hlt : N + 8192 < 4294967296) (hk : 0 < k)
    (hc : ∀ i, Complete (effThreads nt N) (taskRows N nt) (sched i))
    (hce : Complete (effThreads nt N) (taskRows N nt) schedEnd)
    (hbig : ∀ r, r < N → ∀ c, ∀ y ∈ convexHull R ({s0.cltrs.means c} ∪ {x | ∃ r, r < N ∧ x = data r}),
      dist (data r) y < big)
    (hs : ∀ r, r < N → (s0.slots r).ub = big ∨ ∃ c, (s0.slots r).assign = some c)
    (hmax : 0 < maxIters) :
    ∃ res, run dist big norm data N nt mb draw tol maxIters sched schedEnd s0 = .ok res ∧
      res.1 ≤ maxIters ∧
      (∀ r, r < N → ∃ c, (res.2.slots r).assign = some c ∧
        IsNearest (fun c => dist (data r) (res.2.cltrs.means c)) c) ∧
      (∀ c, res.2.counts c
        = (((Finset.range N).filter fun r => (res.2.slots r).assign = some c).card : Int)) ∧
      ∑ c, res.2.counts c = (N : Int) := by
  obtain ⟨⟨i, s⟩, hl⟩ := loop_ok (norm := norm) (data := data) (draw := draw)
    (frac := perctg mb (effThreads nt N) N) (tol := tol) hn hnt hlt hc hk s0.cltrs.means hbig
    maxIters 0 s0 (fun c => subset_convexHull R _ (Or.inl rfl)) hs
  have hinv := loop_inv hn hnt hlt hc
    (fun s => ∀ c, s.cltrs.means c ∈ convexHull R ({s0.cltrs.means c} ∪ {x | ∃ r, r < N ∧ x = data r}))
    (fun i _ _ h0 hi c => iteration_hull hn hnt hlt (hc i) hi _ c (h0 c)) maxIters 0 s0 _
    (fun c => subset_convexHull R _ (Or.inl rfl)) hl
  obtain ⟨s', hf, hcl, hcnt, hnear⟩ := finish_spec (dist := dist) (big := big) (data := data) (s := s)
    hn hnt hlt hce (fun r hr => Or.inl ⟨⟨0, hk⟩, by rw [hinv.2.1 hmax r hr]; exact hbig r hr _ _ (hinv.1 _)⟩)
  refine ⟨(i, s'), ?_, ?_, ?_, ?_, ?_⟩
  · unfold run
    rw [hl]
    simp only [hf]
  · have := hinv.2.2.2; simpa using this
  · intro r hr
    obtain ⟨c, h1, h2⟩ := hnear r hr
    refine ⟨c, h1, ?_⟩
    show IsNearest (fun c => dist (data r) (s'.cltrs.means c)) c
    rw [hcl]; exact h2
  · exact hcnt
  · have h2 : ∀ r, r < N → ∃ c, (s'.slots r).assign = some c := fun r hr => by
      obtain ⟨c, h, _⟩ := hnear r hr
      exact ⟨c, h⟩
    have := Kmeans.sum_count_of_all_assigned N (fun r => (s'.slots r).assign) h2
    have e : (fun c => s'.counts c) = fun c => (Spec.count N (fun r => (s'.slots r).assign) c : Int) :=
      funext hcnt
    show ∑ c, s'.counts c = (N : Int)
    rw [show (∑ c, s'.counts c) = ∑ c, (Spec.count N (fun r => (s'.slots r).assign) c : Int) from
      Finset.sum_congr rfl fun c _ => hcnt c, ← Nat.cast_sum, this]

/-! ## C66 -/

/-- How far the centroids of two states are apart. -/
def moved [Field R] (norm : (Fin k → Row R n) → R) (s s' : PState R D k n) : R :=
  norm fun c j => s'.cltrs.means c j - s.cltrs.means c j

theorem loop_trace [Field R] [LinearOrder R] [IsStrictOrderedRing R] [LinearOrder D]
    {dist : Row R n → Row R n → D} {big : D} {norm : (Fin k → Row R n) → R}
    {data : Nat → Row R n} {N nt : Nat} {draw : Nat → Nat → R} {frac tol : R}
    {sched : Nat → List Nat} (hn : 0 < N) (hnt : 0 < nt) (hlt : N + 8192 < 4294967296)
    (hc : ∀ i, Complete (effThreads nt N) (taskRows N nt) (sched i)) :
    ∀ fuel iter (s : PState R D k n) (res : Nat × PState R D k n),
      loop dist big norm data N nt draw frac tol sched fuel iter s = .ok res →
      ∃ (t : Nat) (st : Nat → PState R D k n), t ≤ fuel ∧ st 0 = s ∧ st t = res.2 ∧
        (∀ i, i < t → iteration dist big data N nt (draw (iter + i)) frac (sched (iter + i)) (st i)
          = .ok (st (i + 1))) ∧
        (∀ i, i + 1 < t → tol ≤ moved norm (st i) (st (i + 1))) ∧
        ((∃ j, t = j + 1 ∧ moved norm (st j) (st (j + 1)) < tol ∧ res.1 = iter + j) ∨
          (t = fuel ∧ res.1 = iter + fuel ∧ ∀ i, i < t → tol ≤ moved norm (st i) (st (i + 1)))) := by
  intro fuel
  induction fuel with
  | zero =>
    intro iter s res h
    simp only [loop, Except.ok.injEq] at h
    subst h
    exact ⟨0, fun _ => s, le_refl _, rfl, rfl, fun i hi => absurd hi (by omega),
      fun i hi => absurd hi (by omega), Or.inr ⟨rfl, rfl, fun i hi => absurd hi (by omega)⟩⟩
  | succ fuel ih =>
    intro iter s res h
    unfold loop at h
    cases hi : iteration dist big data N nt (draw iter) frac (sched iter) s with
    | error e => rw [hi] at h; simp at h
    | ok s1 =>
      rw [hi] at h
      simp only at h
      rw [(iteration_spec hn hnt hlt (hc iter) hi).2.1] at h
      split at h
      · rename_i hm
        simp only [Except.ok.injEq] at h
        subst h
        refine ⟨1, fun i => if i = 0 then s else s1, by omega, rfl, rfl, ?_, fun i hi => by omega,
          Or.inl ⟨0, rfl, hm, rfl⟩⟩
        intro i h1
        have : i = 0 := by omega
        subst this
        exact hi
      · rename_i hm
        obtain ⟨t, st, h1, h2, h3, h4, h5, h6⟩ := ih (iter + 1) s1 res h
        have hm0 : tol ≤ moved norm s (st 0) := by rw [h2]; exact not_lt.1 hm
        refine ⟨t + 1, fun i => match i with | 0 => s | i + 1 => st i, by omega, rfl, h3, ?_, ?_, ?_⟩
        · intro i hi'
          cases i with
          | zero => simpa [h2] using hi
          | succ i =>
            have := h4 i (by omega)
            rw [show iter + 1 + i = iter + (i + 1) by omega] at this
            exact this
        · intro i hi'
          cases i with
          | zero => exact hm0
          | succ i => exact h5 i (by omega)
        · rcases h6 with ⟨j, h7, h8, h9⟩ | ⟨h7, h8, h9⟩
          · subst h7
            exact Or.inl ⟨j + 1, rfl, h8, by omega⟩
          · refine Or.inr ⟨by omega, by omega, ?_⟩
            intro i hi'
            cases i with
            | zero => exact hm0
            | succ i => exact h9 i (by omega)

/-- **C66.**  A mini-batch run is a sequence of iterations from the initial state; in each of them a row
is sampled iff its draw is at most `mb / N` (or `1 / N` if the batch is smaller than the number of
workers); it stops after the first iteration in which the centroids move by less than the tolerance,
reporting that iteration's number (counted from 0), or else after exactly `maxIters` iterations,
reporting `maxIters`. -/
theorem C66_stops_when_told [Field R] [LinearOrder R] [IsStrictOrderedRing R] [Field D] [LinearOrder D]
    (dist : Row R n → Row R n → D) (big : D) (norm : (Fin k → Row R n) → R) (data : Nat → Row R n)
    (N nt mb : Nat) (draw : Nat → Nat → R) (tol : R) (maxIters : Nat) (sched : Nat → List Nat)
    (schedEnd : List Nat) (s0 : PState R D k n) (res : Nat × PState R D k n)
    (hn : 0 < N) (hnt : 0 < nt) (hlt : N + 8192 < 4294967296)
    (hc : ∀ i, Complete (effThreads nt N) (taskRows N nt) (sched i))
    (h : run dist big norm data N nt mb draw tol maxIters sched schedEnd s0 = .ok res) :
    ∃ (t : Nat) (st : Nat → PState R D k n) (f : R), t ≤ maxIters ∧ st 0 = s0 ∧
      (st t).cltrs = res.2.cltrs ∧
      f * (N : R) = (if mb < min nt N then 1 else (mb : R)) ∧
      (∀ i, i < t → iteration dist big data N nt (draw i) f (sched i) (st i) = .ok (st (i + 1))) ∧
      (∀ i, i + 1 < t → tol ≤ moved norm (st i) (st (i + 1))) ∧
      ((∃ j, t = j + 1 ∧ moved norm (st j) (st (j + 1)) < tol ∧ res.1 = j) ∨
        (t = maxIters ∧ res.1 = maxIters ∧ ∀ i, i < t → tol ≤ moved norm (st i) (st (i + 1)))) := by
  unfold run at h
  cases hl : loop dist big norm data N nt draw
      (perctg mb (effThreads nt N) N) tol sched maxIters 0 s0 with
  | error e => rw [hl] at h; simp at h
  | ok q =>
    obtain ⟨i, s⟩ := q
    rw [hl] at h
    simp only at h
    obtain ⟨t, st, h1, h2, h3, h4, h5, h6⟩ := loop_trace hn hnt hlt hc maxIters 0 s0 (i, s) hl
    cases hf : finish dist big data N nt schedEnd s with
    | error e => rw [hf] at h; simp at h
    | ok s' =>
      rw [hf] at h
      simp only [Except.ok.injEq] at h
      subst h
      have hcl : s'.cltrs = s.cltrs := by
        unfold finish at hf
        split at hf
        · simp at hf
        · split at hf
          · simp only [Except.ok.injEq] at hf
            subst hf; rfl
          · simp at hf
      have hN : (N : R) ≠ 0 := by exact_mod_cast hn.ne'
      refine ⟨t, st, perctg mb (effThreads nt N) N, h1, h2, ?_, ?_, ?_, h5, ?_⟩
      · rw [h3]; exact hcl.symm
      · unfold perctg
        rw [div_mul_cancel₀ _ hN]
        have : effThreads nt N = min nt N := by rfl
        rw [this]
        split <;> simp
      · simpa using h4
      · simpa using h6

/-- **C66, the sample.**  In an iteration whose rows carry the bound `big` (as they do in every iteration
of a run) the rows whose draw is at most the fraction are assigned to a nearest centroid of before the
iteration, and every other row keeps its cluster. -/
theorem C66_sampled_rows [Field R] [LinearOrder R] [IsStrictOrderedRing R] [LinearOrder D]
    (dist : Row R n → Row R n → D) (big : D) (data : Nat → Row R n) (N nt : Nat) (draw : Nat → R)
    (frac : R) (sched : List Nat) (s s' : PState R D k n)
    (hn : 0 < N) (hnt : 0 < nt) (hlt : N + 8192 < 4294967296) (hk : 0 < k)
    (hc : Complete (effThreads nt N) (taskRows N nt) sched)
    (hbig : ∀ r, r < N → ∀ c, dist (data r) (s.cltrs.means c) < big) (hs : ∀ r, r < N → (s.slots r).ub = big)
    (h : iteration dist big data N nt draw frac sched s = .ok s') (r : Nat) (hr : r < N) :
    (draw r ≤ frac → ∃ c, (s'.slots r).assign = some c ∧
      IsNearest (fun c => dist (data r) (s.cltrs.means c)) c) ∧
    (frac < draw r → (s'.slots r).assign = (s.slots r).assign) ∧ (s'.slots r).ub = big := by
  obtain ⟨h1, h2⟩ := (iteration_spec hn hnt hlt hc h).1 r hr
  refine ⟨?_, ?_, h2⟩
  · intro hd
    rw [h1]
    unfold mbSlot
    rw [if_neg (not_lt.2 hd)]
    simp only
    rcases init_inv (fun c => dist (data r) (s.cltrs.means c)) (s.slots r).ub
      (s.slots r).assign (List.finRange k) with ⟨_, h4⟩ | ⟨c, _, h4, _, h5⟩
    · exact absurd (h4 ⟨0, hk⟩ (List.mem_finRange _)) (not_le.2 (by rw [hs r hr]; exact hbig r hr _))
    · rw [h4]
      exact ⟨c, rfl, fun c' => h5 c' (List.mem_finRange _)⟩
  · intro hd
    rw [h1]
    unfold mbSlot
    rw [if_pos hd]

/-! ### A concrete run -/

/-- Four points on a line. -/
def demoData (r : Nat) : Row ℚ 1 := fun _ => if r = 0 then 0 else if r = 1 then 1 else if r = 2 then 10
  else 12

/-- The distance on the line. -/
def demoDist (x y : Row ℚ 1) : ℚ := |x 0 - y 0|

def demoInit : PState ℚ ℚ 2 1 :=
  { cltrs := Clusters.empty.setMeans fun c _ => if c = 0 then 0 else 10
    prevMeans := fun _ _ => 0
    prevDist := fun _ => 0
    sval := fun _ => 2000
    dm := ⟨0, []⟩
    slots := fun _ => { assign := none, ub := 2000, recalc := false }
    counts := fun _ => 0
    changed := 0 }

/-- Rows 1 and 3 are sampled in iteration 0, all rows in iteration 1. -/
def demoDraw (i r : Nat) : ℚ := if i = 0 then (if r = 1 ∨ r = 3 then 0 else 1) else 0

structure Obs where
  iters : Nat
  cents : List ℚ
  assign : List (Option Nat)
  counts : List Int
  deriving DecidableEq, Repr

def obs (x : Res (Nat × PState ℚ ℚ 2 1)) : Option Obs :=
  match x with
  | .error _ => none
  | .ok (i, s) => some
      { iters := i
        cents := (List.finRange 2).map fun c => s.cltrs.means c 0
        assign := (List.range 4).map fun r => (s.slots r).assign.map Fin.val
        counts := (List.finRange 2).map s.counts }

def demoSched : List Nat := [0, 1, 1, 0, 1, 0, 0, 1]

-- the hypotheses of C33 hold of this run …
example : Complete (effThreads 2 4) (taskRows 4 2) demoSched := by
  intro t ht
  have : t = 0 ∨ t = 1 := by
    have : effThreads 2 4 = 2 := by decide
    omega
  rcases this with rfl | rfl <;> decide

example : ∀ r, r < 4 → ∀ c, ∀ y ∈ convexHull ℚ ({demoInit.cltrs.means c} ∪ {x | ∃ r, r < 4 ∧ x = demoData r}),
    demoDist (demoData r) y < 2000 := by
  intro r _ c y hy
  have hr : ∀ r, 0 ≤ demoData r 0 ∧ demoData r 0 ≤ 12 := fun r => by unfold demoData; split_ifs <;> norm_num
  have hconv : Convex ℚ {x : Row ℚ 1 | 0 ≤ x 0 ∧ x 0 ≤ 12} := by
    intro x hx y hy a b ha hb hab
    obtain ⟨hx1, hx2⟩ := hx
    obtain ⟨hy1, hy2⟩ := hy
    show 0 ≤ a * x 0 + b * y 0 ∧ a * x 0 + b * y 0 ≤ 12
    constructor <;> nlinarith [mul_nonneg ha hx1, mul_nonneg hb hy1, mul_nonneg ha (sub_nonneg.2 hx2),
      mul_nonneg hb (sub_nonneg.2 hy2)]
  have hs := convexHull_min (s := {demoInit.cltrs.means c} ∪ {x | ∃ r, r < 4 ∧ x = demoData r}) (by
    rintro x (rfl | ⟨r, _, rfl⟩)
    · show 0 ≤ (if c = 0 then (0 : ℚ) else 10) ∧ (if c = 0 then (0 : ℚ) else 10) ≤ 12
      split <;> norm_num
    · exact hr r) hconv hy
  obtain ⟨h1, h2⟩ := hr r
  obtain ⟨h3, h4⟩ := hs
  unfold demoDist
  rw [abs_lt]
  constructor <;> linarith

example : ∀ r, r < 4 → (demoInit.slots r).ub = 2000 ∨ ∃ c, (demoInit.slots r).assign = some c :=
  fun _ _ => Or.inl rfl

-- … and this is its result (rates 1, then 1/2)
example : obs (run demoDist 2000 (fun d => |d 0 0| + |d 1 0|) demoData 4 2 2 demoDraw 0 2
    (fun _ => demoSched) demoSched demoInit)
    = some ⟨2, [3 / 4, 23 / 2], [some 0, some 0, some 1, some 1], [2, 2]⟩ := by decide +kernel

-- a run that converges in its third iteration: it reports 2
example : (obs (run demoDist 2000 (fun d => |d 0 0| + |d 1 0|) demoData 4 2 2 demoDraw (1 / 2) 9
    (fun _ => demoSched) demoSched demoInit)).map Obs.iters = some 2 := by decide +kernel

-- a successful iteration, as C32 and C66 assume
example : ((iteration demoDist 2000 demoData 4 2 (demoDraw 0) (1 / 2) demoSched demoInit).toOption.map
    fun s => ((List.finRange 2).map fun c => s.cltrs.means c 0)) = some [1, 12] := by decide +kernel

end Knor.MiniBatch
