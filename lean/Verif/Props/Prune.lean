import Mathlib.Algebra.Order.Field.Rat
import Verif.Lemmas.PruneRun

/-!
# Properties C20, C22–C25: pruned k-means in shared memory

`Complete (effThreads nt N) (taskRows N nt) sched`: the interleaving lets every worker finish its
tasks.  `DistMatrix.TableFor big k m`: `m` was created for `k` clusters and only ever written to.
-/

namespace Knor.Prune

open Knor Knor.Par Knor.Partition Knor.Spec

variable {R D : Type _} {k n : Nat}

/-! ### Concrete one-dimensional runs used as witnesses -/

/-- One-dimensional Euclidean distance. -/
def abs1 (x y : Row ℚ 1) : ℚ := if x 0 ≤ y 0 then y 0 - x 0 else x 0 - y 0

/-- One-dimensional squared Euclidean distance. -/
def sq1 (x y : Row ℚ 1) : ℚ := (x 0 - y 0) * (x 0 - y 0)

/-- A data set from a list of numbers. -/
def rows1 (l : List ℚ) : Nat → Row ℚ 1 := fun r _ => l.getD r 0

/-- Two centres. -/
def two (a b : ℚ) : Fin 2 → Row ℚ 1 := fun c _ => if c = 0 then a else b

/-- What a run shows: iterations, convergence, changes, and the assignments, sizes, centroids. -/
structure Seen where
  iters : Nat
  converged : Bool
  changed : Nat
  assign : List (Option (Fin 2))
  sizes : List Int
  cents : List ℚ
  deriving DecidableEq

/-- A run from given centres, with two threads and thread 1 going first. -/
def show2 (dist : Row ℚ 1 → Row ℚ 1 → ℚ) (l : List ℚ) (a b : ℚ) (maxIters : Nat) : Res Seen :=
  match construct (R := ℚ) (1000 : ℚ) (two a b) with
  | .error e => .error e
  | .ok s0 =>
    (run dist abs1 1000 (rows1 l) l.length 2 (-1) maxIters (fun _ => List.replicate 4 1 ++
      List.replicate 4 0) s0).map fun x =>
    { iters := x.iters, converged := x.converged, changed := x.state.changed
      assign := (List.range l.length).map fun r => (x.state.slots r).assign
      sizes := [x.state.counts 0, x.state.counts 1]
      cents := [x.state.cltrs.means 0 0, x.state.cltrs.means 1 0] }

/-- A run that works: 0, 1, 10, 12 from centres 0 and 1. -/
example : show2 abs1 [0, 1, 10, 12] 0 1 100 =
    .ok ⟨3, true, 0, [some 0, some 0, some 1, some 1], [2, 2], [1/2, 11]⟩ := by decide +kernel

/-! ### C20 -/

/-- **C20.** Start an iteration in any state in which every row has a cluster and its stored bound
plus the recorded movement of its centroid is at least the true distance to that centroid.  Then
the table is recomputed without failure and the pruned E-step succeeds for every interleaving,
leaves every row at a nearest centroid (moving it only to a strictly closer one), and leaves in
each row a valid bound.  `eucl ≤ dist` holds for the Euclidean and the taxicab metric (C36). -/
theorem C20_pruned_estep_exact [Field R] [Field D] [LinearOrder D] [IsStrictOrderedRing D]
    (dist eucl : Row R n → Row R n → D) (hdom : ∀ x y, eucl x y ≤ dist x y)
    (hsym : ∀ x y, eucl x y = eucl y x) (htri : ∀ x y z, eucl x z ≤ eucl x y + eucl y z)
    (big : D) (data : Nat → Row R n) (N nt : Nat) (hk : 2 ≤ k) (hn : 0 < N) (hnt : 0 < nt)
    (hlt : N + 8192 < 4294967296) (sched : List Nat)
    (hc : Complete (effThreads nt N) (taskRows N nt) sched)
    (s : PState R D k n) (hdm : DistMatrix.TableFor big k s.dm)
    (hbound : ∀ r, r < N → ∃ a, (s.slots r).assign = some a ∧
      dist (data r) (s.cltrs.means a) ≤ (s.slots r).ub + s.prevDist a) :
    ∃ s1 p, computeDm eucl big s = .ok s1 ∧
      Par.run (emRow dist big data s1.view false)
        { mem := s.slots, acc := fun _ => Kmeans.Acc.init, todo := taskRows N nt } sched = .ok p ∧
      ∀ r, r < N → ∃ a a', (s.slots r).assign = some a ∧ (p.mem r).assign = some a' ∧
        IsNearest (fun c => dist (data r) (s.cltrs.means c)) a' ∧
        (a' ≠ a → dist (data r) (s.cltrs.means a') < dist (data r) (s.cltrs.means a)) ∧
        dist (data r) (s.cltrs.means a') ≤ (p.mem r).ub := by
  obtain ⟨m', sv', e, w, g1, g2, _, _⟩ := DistMatrix.computeDist_spec (big := big) (eucl := eucl)
    (cents := s.cltrs.means) (by omega) hsym s.dm s.sval (hdm.wf hk)
  set s1 : PState R D k n := { s with dm := m', sval := sv' } with hs1
  have hv : PruneOk dist eucl big s1.view :=
    ⟨hdom, hsym, htri, ⟨fun a c hac => g1 a c hac⟩, fun a c hac => g2 a c hac⟩
  have hrow : ∀ r, r < N → ∃ s' a a', slotStep dist big data s1.view false r (s.slots r) = .ok s' ∧
      (s.slots r).assign = some a ∧ s'.assign = some a' ∧
      dist (data r) (s.cltrs.means a') ≤ s'.ub ∧
      IsNearest (fun c => dist (data r) (s.cltrs.means c)) a' ∧
      (a' ≠ a → dist (data r) (s.cltrs.means a') < dist (data r) (s.cltrs.means a)) := by
    intro r hr
    obtain ⟨a, ha, hb⟩ := hbound r hr
    obtain ⟨s', a', k1, k2, k3, k4, k5⟩ := slotStep_prune (data := data) hv (r := r)
      (s := s.slots r) ha hb
    exact ⟨s', a, a', k1, ha, k2, k3, k4, k5⟩
  obtain ⟨p, e', q1, _⟩ := run_det (α := Kmeans.Acc R k n)
    (f := emRow dist big data s1.view false) (g := slotStep dist big data s1.view false)
    (h := accStep data false) (fun r m a => by
      rw [emRow_eq]; cases slotStep dist big data s1.view false r m <;> rfl)
    (s0 := { mem := s.slots, acc := fun _ => Kmeans.Acc.init, todo := taskRows N nt })
    (split_taskRows hn hnt hlt) hc
    (fun r hr => by obtain ⟨s', _, _, h, _⟩ := hrow r hr; exact ⟨s', h⟩)
  refine ⟨s1, p, by unfold computeDm; rw [e], e', ?_⟩
  intro r hr
  obtain ⟨s', a, a', k1, k2, k3, k4, k5, k6⟩ := hrow r hr
  have := q1 r hr
  simp only at this
  rw [k1] at this
  simp only [Except.ok.injEq] at this
  subst this
  exact ⟨a, a', k2, k3, k5, k6, k4⟩

/-- **C20, second half.** With the Euclidean metric the whole iteration also leaves valid bounds
for the next one: stored bound plus recorded movement is again at least the distance to the (new)
centroid of the row. -/
theorem C20_bounds_stay_valid [Field R] [Field D] [LinearOrder D] [IsStrictOrderedRing D]
    (eucl : Row R n → Row R n → D)
    (hsym : ∀ x y, eucl x y = eucl y x) (htri : ∀ x y z, eucl x z ≤ eucl x y + eucl y z)
    (big : D) (data : Nat → Row R n) (N nt : Nat) (hk : 2 ≤ k) (hn : 0 < N) (hnt : 0 < nt)
    (hlt : N + 8192 < 4294967296) (sched : List Nat)
    (hc : Complete (effThreads nt N) (taskRows N nt) sched)
    (s s' : PState R D k n) (hdm : DistMatrix.TableFor big k s.dm)
    (hbound : ∀ r, r < N → ∃ a, (s.slots r).assign = some a ∧
      eucl (data r) (s.cltrs.means a) ≤ (s.slots r).ub + s.prevDist a)
    (hok : pass eucl eucl big data N nt sched s = .ok s') :
    ∀ r, r < N → ∃ a, (s'.slots r).assign = some a ∧
      IsNearest (fun c => eucl (data r) (s.cltrs.means c)) a ∧
      eucl (data r) (s'.cltrs.means a) ≤ (s'.slots r).ub + s'.prevDist a := by
  obtain ⟨s1, p, e1, e2, h⟩ := C20_pruned_estep_exact eucl eucl (fun _ _ => le_refl _) hsym htri big
    data N nt hk hn hnt hlt sched hc s hdm hbound
  unfold pass at hok
  rw [e1] at hok
  simp only at hok
  obtain ⟨p', e2', i1, i2, i3⟩ := iteration_shape hok
  have hs1 : s1.slots = s.slots ∧ s1.cltrs = s.cltrs := by
    unfold computeDm at e1
    split at e1
    · simp at e1
    · simp only [Except.ok.injEq] at e1; rw [← e1]; exact ⟨rfl, rfl⟩
  rw [hs1.1, e2] at e2'
  simp only [Except.ok.injEq] at e2'
  subst e2'
  intro r hr
  obtain ⟨a, a', _, k2, k3, _, k5⟩ := h r hr
  refine ⟨a', by rw [i1]; exact k2, k3, ?_⟩
  rw [i1, i3, i2]
  simp only [Bool.false_eq_true, if_false, hs1.2]
  have ht := htri (data r) (s.cltrs.means a') (s'.cltrs.means a')
  rw [hsym (s.cltrs.means a')] at ht
  linarith

/-- `abs1` has the properties asked of the metric. -/
theorem abs1_metric : (∀ x y, abs1 x y = abs1 y x) ∧ ∀ x y z, abs1 x z ≤ abs1 x y + abs1 y z := by
  constructor
  · intro x y
    unfold abs1
    split <;> split <;> linarith
  · intro x y z
    unfold abs1
    split <;> split <;> split <;> linarith

/-- A state that meets the hypotheses of C20: rows 0, 1, 10, 12, centroids 0 and 23/3 that moved by
0 and 20/3, bounds 0, 0, 9, 11 from before the movement. -/
example : ∃ (s : PState ℚ ℚ 2 1), DistMatrix.TableFor 1000 2 s.dm ∧
    (∀ r, r < 4 → ∃ a, (s.slots r).assign = some a ∧
      abs1 (rows1 [0, 1, 10, 12] r) (s.cltrs.means a) ≤ (s.slots r).ub + s.prevDist a) ∧
    ∃ r, r < 4 ∧ (s.slots r).assign = some 1 ∧
      ¬ IsNearest (fun c => abs1 (rows1 [0, 1, 10, 12] r) (s.cltrs.means c)) 1 := by
  refine ⟨{ cltrs := ⟨two 0 (23/3), fun _ => 2, fun _ => true⟩
            prevMeans := two 0 1
            prevDist := fun c => if c = 0 then 0 else 20/3
            sval := fun _ => 1000
            dm := ⟨1, [[1000]]⟩
            slots := fun r => ⟨some (if r = 0 then 0 else 1), [0, 0, 9, 11].getD r 0, false⟩
            counts := fun _ => 2
            changed := 0 }, ⟨⟨1, [[1000]]⟩, [], by decide +kernel, by simp, rfl⟩, ?_, ?_⟩
  · intro r hr
    have : r = 0 ∨ r = 1 ∨ r = 2 ∨ r = 3 := by omega
    rcases this with rfl | rfl | rfl | rfl
    · exact ⟨0, rfl, by decide +kernel⟩
    · exact ⟨1, rfl, by decide +kernel⟩
    · exact ⟨1, rfl, by decide +kernel⟩
    · exact ⟨1, rfl, by decide +kernel⟩
  · refine ⟨1, by decide, rfl, ?_⟩
    intro h
    have h0 := h 0
    revert h0
    decide +kernel

/-! ### C22 -/

/-- The full statement of C22 for metric `dist`: if a run from given centres reports convergence
with no changed row, every row is assigned to a nearest returned centroid. -/
def ExactAtConvergence (dist eucl : Row R n → Row R n → D) (big : D) [Field R] [LinearOrder R]
    [Field D] [LinearOrder D] (k : Nat) : Prop :=
  ∀ (data : Nat → Row R n) (N nt : Nat) (tol : R) (maxIters : Nat) (sched : Nat → List Nat)
    (centers : Fin k → Row R n) (s0 : PState R D k n) (res : Result R D k n),
    0 < N → 0 < nt → N + 8192 < 4294967296 →
    (∀ i, Complete (effThreads nt N) (taskRows N nt) (sched i)) →
    construct big centers = .ok s0 →
    (∀ r, r < N → ∃ c, dist (data r) (centers c) < big) →
    run dist eucl big data N nt tol maxIters sched s0 = .ok res →
    res.converged = true → res.state.changed = 0 →
    ∀ r, r < N → ∃ a, (res.state.slots r).assign = some a ∧
      IsNearest (fun c => dist (data r) (res.state.cltrs.means c)) a

theorem ex_of_map {α β : Type _} {x : Res α} {f : α → β} {v : β} (h : x.map f = .ok v) :
    ∃ a, x = .ok a ∧ f a = v := by
  cases x with
  | error e => simp [Except.map] at h
  | ok a => exact ⟨a, rfl, by simpa [Except.map] using h⟩

/-- A wrong result of `show2` refutes exactness. -/
theorem not_exact_of_show (dist : Row ℚ 1 → Row ℚ 1 → ℚ) (l : List ℚ) (a b : ℚ) (mi it : Nat)
    (as : List (Option (Fin 2))) (cn : List Int) (m0 m1 : ℚ)
    (hlen : 0 < l.length) (hlen' : l.length ≤ 4)
    (hb : ∀ r, r < l.length → dist (rows1 l r) (two a b 0) < 1000)
    (h : show2 dist l a b mi = .ok ⟨it, true, 0, as, cn, [m0, m1]⟩)
    (bad : ∃ r, r < l.length ∧ ∃ x y : Fin 2, as[r]? = some (some x) ∧
      dist (rows1 l r) (two m0 m1 y) < dist (rows1 l r) (two m0 m1 x)) :
    ¬ ExactAtConvergence dist abs1 1000 2 := by
  intro hex
  unfold show2 at h
  cases hcs : construct (R := ℚ) (1000 : ℚ) (two a b) with
  | error e => rw [hcs] at h; simp at h
  | ok s0 =>
    rw [hcs] at h
    obtain ⟨res, e, hres⟩ := ex_of_map h
    simp only [Seen.mk.injEq, List.cons.injEq] at hres
    obtain ⟨_, hcv, hch, has, _, hm0, hm1, _⟩ := hres
    have hcomp : ∀ i : Nat, Complete (effThreads 2 l.length) (taskRows l.length 2)
        ((fun _ => List.replicate 4 1 ++ List.replicate 4 0) i) := by
      intro _ t ht
      have hsp := split_taskRows hlen (by decide : 0 < 2) (by omega : l.length + 8192 < 4294967296)
      have hle : (taskRows l.length 2 t).length ≤ l.length := by
        have hnd := hsp.disjoint.1 t
        have hsub : (taskRows l.length 2 t) ⊆ List.range l.length := by
          intro r hr; exact List.mem_range.2 ((hsp.mem_iff r).1 ⟨t, hr⟩)
        have := (hnd.subperm hsub).length_le
        simpa using this
      have ht2 : t = 0 ∨ t = 1 := by
        have : effThreads 2 l.length ≤ 2 := by unfold effThreads; omega
        omega
      have hcnt : (List.replicate 4 1 ++ List.replicate 4 0).count t = 4 := by
        rcases ht2 with rfl | rfl <;> decide
      simp only [hcnt]; omega
    have := hex (rows1 l) l.length 2 (-1) mi _ (two a b) s0 res hlen (by decide) (by omega) hcomp hcs
      (fun r hr => ⟨0, hb r hr⟩) e hcv hch
    obtain ⟨r, hr, x, y, hx, hlt⟩ := bad
    obtain ⟨a', ha', hn'⟩ := this r hr
    rw [← has, List.getElem?_map, List.getElem?_range hr] at hx
    simp only [Option.map_some, Option.some.injEq] at hx
    rw [ha'] at hx
    simp only [Option.some.injEq] at hx
    subst hx
    have hmeans : res.state.cltrs.means = two m0 m1 := by
      funext c j
      have hj : j = 0 := Subsingleton.elim _ _
      subst hj
      have hc : c = 0 ∨ c = 1 := by omega
      rcases hc with rfl | rfl
      · exact hm0
      · exact hm1
    have h' := hn' y
    simp only [hmeans] at h'
    exact absurd hlt (not_lt.2 h')

/-- **C22 is false of the code.**  Rows 19, -19, 20 from centres 10 and 29: the first iteration
moves the centroids by 10 and 9 but records movements 0 and 20 (distance to the zero vector, since
the previous means are not stored before the first update), so row 19 keeps the too small bound 9;
the second iteration skips it and the run reports convergence with centroids 0 and 20 and row 19
in the cluster of centroid 0. -/
theorem C22_violation : ¬ ExactAtConvergence abs1 abs1 (1000 : ℚ) 2 := by
  refine not_exact_of_show abs1 [19, -19, 20] 10 29 100 2 [some 0, some 0, some 1] [2, 1] 0 20
    (by decide) (by decide) ?_ (by decide +kernel) ⟨0, by decide, 0, 1, by decide, by decide +kernel⟩
  intro r hr
  have : r = 0 ∨ r = 1 ∨ r = 2 := by simp only [List.length_cons, List.length_nil] at hr; omega
  rcases this with rfl | rfl | rfl <;> decide +kernel

/-- **C22, what holds.**  If in the first iteration no centroid moves further than the movement the
code records for it (its distance to the stored previous mean, which is the zero vector), a run
returns normally; if it performed at least two iterations every row is at a centroid nearest among
those its last iteration started from; it reports convergence only if the stopping rule holds; and
if it reports convergence with no changed row, every row is at a nearest returned centroid, so the
result is a Lloyd fixed point.  The full statement `ExactAtConvergence` drops the hypothesis
`hmove` and is refuted above. -/
theorem C22_exact_at_convergence_partial [Field R] [LinearOrder R] [CharZero R] [Field D]
    [LinearOrder D] [IsStrictOrderedRing D] (eucl : Row R n → Row R n → D)
    (hsym : ∀ x y, eucl x y = eucl y x) (htri : ∀ x y z, eucl x z ≤ eucl x y + eucl y z)
    (big : D) (data : Nat → Row R n) (N nt : Nat) (tol : R) (maxIters : Nat)
    (sched : Nat → List Nat) (centers : Fin k → Row R n) (s0 : PState R D k n)
    (hn : 0 < N) (hnt : 0 < nt) (hlt : N + 8192 < 4294967296)
    (hc : ∀ i, Complete (effThreads nt N) (taskRows N nt) (sched i))
    (hcon : construct big centers = .ok s0) (hk : 2 ≤ k)
    (hb : ∀ r, r < N → ∃ c, eucl (data r) (centers c) < big)
    (hmove : ∀ s1, iteration eucl eucl big data N nt true (sched 1) s0 = .ok s1 →
      ∀ c, eucl (centers c) (s1.cltrs.means c) ≤ eucl (s1.cltrs.means c) (fun _ => 0)) :
    ∃ res, run eucl eucl big data N nt tol maxIters sched s0 = .ok res ∧
      (0 < maxIters → res.iters ≤ maxIters + 1) ∧
      (2 ≤ maxIters → ∀ r, r < N → ∃ a, (res.state.slots r).assign = some a ∧
        IsNearest (fun c => eucl (data r) (res.state.prevMeans c)) a) ∧
      (res.converged = true →
        (res.state.changed = 0 ∨ (res.state.changed : R) / (N : R) ≤ tol) ∧
        (res.state.changed = 0 → ∀ r, r < N → ∃ a, (res.state.slots r).assign = some a ∧
          IsNearest (fun c => eucl (data r) (res.state.cltrs.means c)) a)) := by
  unfold run
  by_cases hm : 0 < maxIters
  · rw [if_pos hm]
    have hs0 : ∃ m, DistMatrix.create big k = .ok m ∧
        s0 = { cltrs := Clusters.empty.setMeans centers
               prevMeans := fun _ _ => 0
               prevDist := fun _ => 0
               sval := fun _ => big
               dm := m
               slots := fun _ => { assign := none, ub := big, recalc := false }
               counts := fun _ => 0
               changed := 0 } := by
      unfold construct at hcon
      split at hcon
      · simp at hcon
      · rename_i m hm
        simp only [Except.ok.injEq] at hcon
        exact ⟨m, hm, hcon.symm⟩
    obtain ⟨m, hcr, hs0⟩ := hs0
    obtain ⟨m', hcr', wf, _⟩ := DistMatrix.create_wf (big := big) (k := k) (by omega)
    rw [hcr] at hcr'
    simp only [Except.ok.injEq] at hcr'
    subst hcr'
    obtain ⟨s1, e1, hcons, hpd, _, hrows⟩ := first_consistent (dist := eucl) (eucl := eucl)
      (big := big) (s := s0) hn hnt hlt (hc 1) (by rw [hs0]; exact wf)
      (fun r hr => Or.inl (by
        obtain ⟨c, h⟩ := hb r hr
        exact ⟨c, by rw [hs0]; exact h⟩))
    rw [e1]
    simp only
    have hgood : Good eucl data N { s1 with changed := 0 } := by
      refine ⟨hcons.cltrs, hcons.assigned, ?_, hcons.wf⟩
      intro r a hr ha
      obtain ⟨c, h1, h2, _⟩ := hrows r hr
      simp only at ha
      rw [h1] at ha
      simp only [Option.some.injEq] at ha
      subst ha
      have hmv := hmove s1 e1 c
      have hprev : s0.prevMeans c = fun _ => 0 := by rw [hs0]
      have hce : s0.cltrs.means c = centers c := by rw [hs0]; rfl
      simp only
      rw [h2, hpd, hprev, hce]
      have := htri (data r) (centers c) (s1.cltrs.means c)
      linarith
    obtain ⟨res, e, i0, i1, i2, _⟩ := loop_exact (eucl := eucl) (big := big) (tol := tol)
      (maxIters := maxIters) (by omega) rfl hsym htri hn hnt hlt hc hm maxIters 2
      { s1 with changed := 0 } hgood rfl (by omega)
    exact ⟨res, e, fun _ => by omega, i1, i2⟩
  · rw [if_neg hm]
    exact ⟨_, rfl, fun h => absurd h hm, fun h => by omega, by simp⟩

/-- The working run above meets `hmove`: its centroids move from 0 and 1 to 0 and 23/3. -/
example : (match construct (R := ℚ) (1000 : ℚ) (two 0 1) with
    | .error _ => none
    | .ok s0 => (iteration abs1 abs1 1000 (rows1 [0, 1, 10, 12]) 4 2 true [1, 1, 0, 0] s0).toOption.map
      fun s1 => decide (∀ c, abs1 (two 0 1 c) (s1.cltrs.means c) ≤ abs1 (s1.cltrs.means c) (fun _ => 0)))
    = some true := by decide +kernel

/-! ### C23 -/

/-- **C23 is false of the code** for the squared Euclidean metric, although the previous problem is
absent here: rows 0, 1/5, 4/5 from centres 0 and 1/5 end converged with centroids 0 and 1/2 and row
1/5 in the cluster of 1/2 (squared distance 9/100 against 4/100), because the squared distance is
compared with half the plain distance of the centroids. -/
theorem C23_violation_sqeucl : ¬ ExactAtConvergence sq1 abs1 (1000 : ℚ) 2 := by
  refine not_exact_of_show sq1 [0, 1/5, 4/5] 0 (1/5) 100 2 [some 0, some 1, some 1] [1, 2] 0 (1/2)
    (by decide) (by decide) ?_ (by decide +kernel) ⟨1, by decide, 1, 0, by decide, by decide +kernel⟩
  intro r hr
  have : r = 0 ∨ r = 1 ∨ r = 2 := by simp only [List.length_cons, List.length_nil] at hr; omega
  rcases this with rfl | rfl | rfl <;> decide +kernel

/-- The witness of `C23_violation_sqeucl` meets the extra hypothesis `hmove` of the C22 theorem. -/
example : (match construct (R := ℚ) (1000 : ℚ) (two 0 (1/5)) with
    | .error _ => none
    | .ok s0 => (iteration sq1 abs1 1000 (rows1 [0, 1/5, 4/5]) 3 2 true [1, 1, 0, 0] s0).toOption.map
      fun s1 => decide (∀ c, abs1 (two 0 (1/5) c) (s1.cltrs.means c)
        ≤ abs1 (s1.cltrs.means c) (fun _ => 0)))
    = some true := by decide +kernel

/-- **C23, what holds.**  For every metric that is at least the Euclidean distance (Euclidean and
taxicab, C36) the E-step is exact whenever its stored bounds are valid.  Missing for the full
statement: the squared and cosine metrics (refuted for the former), and for taxicab that the bounds
stay valid, since movements are recorded in the Euclidean metric. -/
theorem C23_sound_for_dominating_metrics_partial [Field R] [Field D] [LinearOrder D]
    [IsStrictOrderedRing D]
    (dist eucl : Row R n → Row R n → D) (hdom : ∀ x y, eucl x y ≤ dist x y)
    (hsym : ∀ x y, eucl x y = eucl y x) (htri : ∀ x y z, eucl x z ≤ eucl x y + eucl y z)
    (big : D) (data : Nat → Row R n) (N nt : Nat) (hk : 2 ≤ k) (hn : 0 < N) (hnt : 0 < nt)
    (hlt : N + 8192 < 4294967296) (sched : List Nat)
    (hc : Complete (effThreads nt N) (taskRows N nt) sched)
    (s s' : PState R D k n) (hdm : DistMatrix.TableFor big k s.dm)
    (hbound : ∀ r, r < N → ∃ a, (s.slots r).assign = some a ∧
      dist (data r) (s.cltrs.means a) ≤ (s.slots r).ub + s.prevDist a)
    (hok : pass dist eucl big data N nt sched s = .ok s') :
    ∀ r, r < N → ∃ a, (s'.slots r).assign = some a ∧
      IsNearest (fun c => dist (data r) (s.cltrs.means c)) a := by
  obtain ⟨s1, p, e1, e2, h⟩ := C20_pruned_estep_exact dist eucl hdom hsym htri big
    data N nt hk hn hnt hlt sched hc s hdm hbound
  unfold pass at hok
  rw [e1] at hok
  simp only at hok
  obtain ⟨p', e2', i1, _⟩ := iteration_shape hok
  have hs1 : s1.slots = s.slots := by
    unfold computeDm at e1
    split at e1
    · simp at e1
    · simp only [Except.ok.injEq] at e1; rw [← e1]
  rw [hs1, e2] at e2'
  simp only [Except.ok.injEq] at e2'
  subst e2'
  intro r hr
  obtain ⟨a, a', _, k2, k3, _⟩ := h r hr
  exact ⟨a', by rw [i1]; exact k2, k3⟩

/-! ### C24 -/

/-- **C24.** Whatever the bounds and the metric: a run from given centres (each row closer than
`big` to one of them) with `maxIters > 0` returns normally, every row has a cluster, the reported
sizes are the histogram of the assignment, and each centroid is the mean of the rows assigned to it
(zero for an empty cluster) — although after the first iteration only changed rows were moved. -/
theorem C24_incremental_equals_recomputed [Field R] [LinearOrder R] [CharZero R] [Field D]
    [LinearOrder D] (dist eucl : Row R n → Row R n → D)
    (big : D) (data : Nat → Row R n) (N nt : Nat) (tol : R) (maxIters : Nat)
    (sched : Nat → List Nat) (centers : Fin k → Row R n) (s0 : PState R D k n)
    (hn : 0 < N) (hnt : 0 < nt) (hlt : N + 8192 < 4294967296)
    (hc : ∀ i, Complete (effThreads nt N) (taskRows N nt) (sched i))
    (hcon : construct big centers = .ok s0)
    (hb : ∀ r, r < N → ∃ c, dist (data r) (centers c) < big) (hmax : 0 < maxIters) :
    ∃ res, run dist eucl big data N nt tol maxIters sched s0 = .ok res ∧
      (∀ r, r < N → ∃ c, (res.state.slots r).assign = some c) ∧
      ∀ c, let members := (Finset.range N).filter fun r => (res.state.slots r).assign = some c
        res.state.counts c = (members.card : Int) ∧
        (members.card ≠ 0 →
          ∀ j, res.state.cltrs.means c j = (∑ r ∈ members, data r j) / (members.card : R)) ∧
        (members.card = 0 → ∀ j, res.state.cltrs.means c j = 0) := by
  have hcr : DistMatrix.create big k = .ok s0.dm ∧ s0.cltrs.means = centers ∧
      ∀ r, (s0.slots r).ub = big := by
    unfold construct at hcon
    split at hcon
    · simp at hcon
    · rename_i m hm
      simp only [Except.ok.injEq] at hcon
      subst hcon
      exact ⟨hm, rfl, fun _ => rfl⟩
  have hk : 1 < k := by
    by_contra h
    have := hcr.1
    unfold DistMatrix.create at this
    rw [if_neg h] at this
    simp at this
  obtain ⟨m', hcr', wf, _⟩ := DistMatrix.create_wf (big := big) (k := k) hk
  rw [hcr.1] at hcr'
  simp only [Except.ok.injEq] at hcr'
  rw [← hcr'] at wf
  obtain ⟨s1, e1, hcons, _⟩ := first_consistent (dist := dist) (eucl := eucl)
    (big := big) (s := s0) hn hnt hlt (hc 1) wf
    (fun r hr => Or.inl (by
      obtain ⟨c, h⟩ := hb r hr
      exact ⟨c, by rw [hcr.2.1, hcr.2.2]; exact h⟩))
  obtain ⟨res, e, hres⟩ := loop_consistent (dist := dist) (eucl := eucl) (big := big) (tol := tol)
    (maxIters := maxIters) hk hn hnt hlt hc maxIters 2 { s1 with changed := 0 }
    ⟨hcons.cltrs, hcons.assigned, hcons.counts, hcons.wf⟩
  refine ⟨res, by unfold run; rw [if_pos hmax, e1]; exact e, hres.assigned, ?_⟩
  intro c members
  refine ⟨hres.counts c, ?_, ?_⟩
  · intro h j
    rw [hres.cltrs]
    exact if_neg h
  · intro h j
    rw [hres.cltrs]
    exact if_pos h

/-- **C24 for one iteration**, from any state in which sums and sizes are those of the assignment:
the iteration succeeds, they are again, and the reported change count grows by exactly the number
of rows that moved. -/
theorem C24_one_iteration [Field R] [CharZero R] [Field D] [LinearOrder D]
    (dist eucl : Row R n → Row R n → D) (big : D) (data : Nat → Row R n) (N nt : Nat)
    (sched : List Nat) (hk : 2 ≤ k) (hn : 0 < N) (hnt : 0 < nt) (hlt : N + 8192 < 4294967296)
    (hc : Complete (effThreads nt N) (taskRows N nt) sched)
    (s : PState R D k n) (hdm : DistMatrix.TableFor big k s.dm)
    (hall : ∀ r, r < N → ∃ c, (s.slots r).assign = some c)
    (hfin : ∀ c, s.cltrs.complete c = true)
    (hnum : ∀ c, s.cltrs.num c = (Spec.count N (fun r => (s.slots r).assign) c : Int))
    (hmean : ∀ c j, s.cltrs.means c j = memberMean N data (fun r => (s.slots r).assign) c j) :
    ∃ s', pass dist eucl big data N nt sched s = .ok s' ∧
      (∀ r, r < N → ∃ c, (s'.slots r).assign = some c) ∧
      (∀ c, s'.cltrs.complete c = true) ∧
      (∀ c, s'.cltrs.num c = (Spec.count N (fun r => (s'.slots r).assign) c : Int)) ∧
      (∀ c, s'.counts c = (Spec.count N (fun r => (s'.slots r).assign) c : Int)) ∧
      (∀ c j, s'.cltrs.means c j = memberMean N data (fun r => (s'.slots r).assign) c j) ∧
      s'.changed = s.changed +
        ((Finset.range N).filter fun r => (s.slots r).assign ≠ (s'.slots r).assign).card := by
  have hcl : s.cltrs = Kmeans.clustersOf N data (assignOf s.slots) := by
    apply Clusters.ext
    · funext c j; exact hmean c j
    · funext c; exact hnum c
    · funext c; exact hfin c
  obtain ⟨s', e, h1, _, h3⟩ := pass_consistent (dist := dist) (eucl := eucl) (big := big)
    (by omega) hn hnt hlt hc hcl hall (hdm.wf hk)
  refine ⟨s', e, h1.assigned, ?_, ?_, h1.counts, ?_, h3⟩
  · intro c; rw [h1.cltrs]; rfl
  · intro c; rw [h1.cltrs]; rfl
  · intro c j; rw [h1.cltrs]; rfl

/-- The first iteration of the working run leaves such a state. -/
example : (match construct (R := ℚ) (1000 : ℚ) (two 0 1) with
    | .error _ => none
    | .ok s0 => (iteration abs1 abs1 1000 (rows1 [0, 1, 10, 12]) 4 2 true [1, 1, 0, 0] s0).toOption.map
      fun s1 => ((List.range 4).map fun r => (s1.slots r).assign, s1.cltrs.num 0, s1.cltrs.num 1,
        s1.cltrs.means 1 0, s1.cltrs.complete 0, s1.cltrs.complete 1))
    = some ([some 0, some 1, some 1, some 1], 1, 3, 23/3, true, true) := by decide +kernel

/-! ### C25 -/

/-- **C25, one iteration.** In every state (valid bounds or not, also when the iteration fails) the
result of a pruned iteration — assignments, bounds, sizes, centroids, movements, change count — is
the same for all thread counts and interleavings. -/
theorem C25_iteration_schedule_irrelevant [Field R] [Field D] [LinearOrder D]
    (dist eucl : Row R n → Row R n → D) (big : D) (data : Nat → Row R n) (N : Nat) (hk : 2 ≤ k)
    (hn : 0 < N) (hlt : N + 8192 < 4294967296) (s : PState R D k n)
    (hdm : DistMatrix.TableFor big k s.dm)
    (nt nt' : Nat) (hnt : 0 < nt) (hnt' : 0 < nt') (sched sched' : List Nat)
    (hc : Complete (effThreads nt N) (taskRows N nt) sched)
    (hc' : Complete (effThreads nt' N) (taskRows N nt') sched') :
    iteration dist eucl big data N nt true sched s = iteration dist eucl big data N nt' true sched' s ∧
    pass dist eucl big data N nt sched s = pass dist eucl big data N nt' sched' s :=
  ⟨iteration_indep hn hnt hnt' hlt hc hc' (by simp),
    (pass_indep (by omega) hn hnt hnt' hlt hc hc' (hdm.wf hk)).1⟩

/-- **C25, whole runs.** -/
theorem C25_run_schedule_irrelevant [Field R] [LinearOrder R] [Field D] [LinearOrder D]
    (dist eucl : Row R n → Row R n → D) (big : D) (data : Nat → Row R n) (N : Nat) (hk : 2 ≤ k)
    (hn : 0 < N) (hlt : N + 8192 < 4294967296) (tol : R) (maxIters : Nat) (s0 : PState R D k n)
    (hdm : DistMatrix.TableFor big k s0.dm)
    (nt nt' : Nat) (hnt : 0 < nt) (hnt' : 0 < nt') (sched sched' : Nat → List Nat)
    (hc : ∀ i, Complete (effThreads nt N) (taskRows N nt) (sched i))
    (hc' : ∀ i, Complete (effThreads nt' N) (taskRows N nt') (sched' i)) :
    run dist eucl big data N nt tol maxIters sched s0
      = run dist eucl big data N nt' tol maxIters sched' s0 := by
  unfold run
  by_cases hm : 0 < maxIters
  · rw [if_pos hm, if_pos hm,
      ← iteration_indep (nt := nt) hn hnt hnt' hlt (hc 1) (hc' 1) (by simp)]
    cases h : iteration dist eucl big data N nt true (sched 1) s0 with
    | error e => rfl
    | ok s1 =>
      simp only
      exact loop_indep (by omega) hn hnt hnt' hlt hc hc' _ _ _
        (by simp only; rw [iteration_dm h]; exact hdm.wf hk)
  · rw [if_neg hm, if_neg hm]

/-- Two different complete schedules for two and three threads on four rows. -/
example : Complete (effThreads 2 4) (taskRows 4 2) [1, 0, 0, 1] ∧
    Complete (effThreads 3 4) (taskRows 4 3) [2, 2, 1, 0] ∧
    (List.range 3).map (taskRows 4 3) ≠ (List.range 3).map (taskRows 4 2) := by
  refine ⟨?_, ?_, by decide⟩
  · intro t ht
    have : t = 0 ∨ t = 1 := by
      have : effThreads 2 4 = 2 := by decide
      omega
    rcases this with rfl | rfl <;> decide
  · intro t ht
    have : t = 0 ∨ t = 1 ∨ t = 2 := by
      have : effThreads 3 4 = 3 := by decide
      omega
    rcases this with rfl | rfl | rfl <;> decide

end Knor.Prune
