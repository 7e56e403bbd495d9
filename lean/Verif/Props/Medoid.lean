import Mathlib.Algebra.Order.Field.Rat
import Mathlib.Algebra.Order.Ring.Abs
import Mathlib.Data.Fintype.Pi
import Mathlib.Tactic.FinCases
import Verif.Lemmas.Medoid
import Verif.Props.Dist

/-!
# Properties C39, C60, C61, C70: k-medoids

`dist` is the metric the workers use.  C39 and C61 hold for every symmetric `dist` with
`dist x x = 0`, in particular for the Euclidean and the taxicab distance (C36).
-/

namespace Knor.Medoid

open Knor Knor.Par Knor.Partition Knor.Kmeans Knor.Spec

variable {R D : Type _} {k n : Nat}

/-! ### Witness: rows 0, 1, 2, 9, 10 in one dimension, two clusters started at rows 0 and 1, two
threads. -/

/-- Distance of the witness. -/
def demoDist (x y : Row ℚ 1) : ℚ := |x 0 - y 0|
/-- Rows of the witness. -/
def demo (r : Nat) : Row ℚ 1 := fun _ => if r < 3 then r else r + 6
/-- First medoids of the witness. -/
def demoPick (c : Fin 2) : Nat := c
/-- An interleaving of two threads over five rows. -/
def demoSched : List Nat := [1, 0, 1, 0, 0, 1]

example : Complete (effThreads 2 5) (threadRows 5 2) demoSched := by
  intro t ht
  have h2 : effThreads 2 5 = 2 := by decide
  have : t = 0 ∨ t = 1 := by omega
  rcases this with rfl | rfl <;> decide

/-- The witness run, sampling every row: medoids end at rows 1 and 3, energies 2 and 1. -/
example : (run true demoDist 1000 demo 5 2 demoPick (fun _ _ => 0) (1/5) (-1) 10 demoSched
      (fun _ => demoSched) (fun _ => demoSched)).map (fun x =>
      (x.iters, (List.range 5).map x.state.assign, x.state.ids 0, x.state.ids 1,
        x.state.energy 0, x.state.energy 1))
    = .ok (3, [some 0, some 0, some 0, some 1, some 1], 1, 3, 2, 1) := by decide +kernel

/-- Every other initialisation method is rejected with an exception. -/
example : (run false demoDist 1000 demo 5 2 demoPick (fun _ _ => 0) (1/5) (-1) 10 demoSched
      (fun _ => demoSched) (fun _ => demoSched)).map (fun x => x.iters) = .error .throws := by
  decide +kernel

/-- What holds whenever the coordinator is between iterations. -/
structure Synced [AddCommMonoid D] [LinearOrder D] (dist : Row R n → Row R n → D) (N : Nat)
    (data : Nat → Row R n) (s : MState R D k n) : Prop where
  /-- every medoid is a row of the data set -/
  row : ∀ c, s.ids c < N ∧ s.cents c = data (s.ids c)
  /-- every row belongs to its nearest medoid, the lowest-numbered on ties -/
  near : ∀ r, r < N → ∃ c, s.assign r = some c ∧
    IsFirstNearest (fun c => dist (data r) (s.cents c)) c
  members : ∀ c, s.members c = (List.range N).filter fun r => decide (s.assign r = some c)
  energy : ∀ c, s.energy c = energyAt dist N data s.assign c (s.cents c)
  counts : ∀ c, s.counts c = (Spec.count N s.assign c : Int)
  flag : s.medoidsChanged = true

theorem synced_of_em [AddCommMonoid D] [LinearOrder D] {dist : Row R n → Row R n → D} {big : D}
    {data : Nat → Row R n} {N nt : Nat} {sched : List Nat} {s s' : MState R D k n}
    (hn : 0 < N) (hnt : 0 < nt) (hlt : N < 4294967296)
    (hc : Complete (effThreads nt N) (threadRows N nt) sched)
    (hrow : ∀ c, s.ids c < N ∧ s.cents c = data (s.ids c)) (hmem : s.members = fun _ => [])
    (hflag : s.medoidsChanged = true) (hok : emPhase dist big data N nt sched s = .ok s') :
    Synced dist N data s' ∧ s'.cents = s.cents ∧ s'.ids = s.ids ∧
      s'.changed = numChanged N s.assign s'.assign := by
  by_cases hb : ∀ r, r < N → ∃ c, dist (data r) (s.cents c) < big
  · rw [em_closed hn hnt hlt hc hb] at hok
    simp only [Except.ok.injEq] at hok
    subst hok
    refine ⟨⟨hrow, ?_, ?_, fun c => rfl, fun c => rfl, hflag⟩, rfl, rfl, rfl⟩
    · intro r hr
      obtain ⟨c, h⟩ := emScan_exists (hb r hr)
      exact ⟨c, by simp [newAssign, hr, h], emScan_some h⟩
    · intro c
      simp [populate, hmem]
  · simp only [not_forall, not_exists] at hb
    obtain ⟨r0, hr0, hb⟩ := hb
    rw [em_aborts hnt hlt hc hr0 hb] at hok
    simp at hok

theorem init_synced [Zero R] [AddCommMonoid D] [LinearOrder D] {dist : Row R n → Row R n → D}
    {big : D} {data : Nat → Row R n} {N nt : Nat} {sched : List Nat} {pick : Fin k → Nat}
    {s : MState R D k n} (hn : 0 < N) (hnt : 0 < nt) (hlt : N < 4294967296)
    (hc : Complete (effThreads nt N) (threadRows N nt) sched) (hpick : ∀ c, pick c < N)
    {b : Bool} (hok : runInit b dist big data N nt pick sched = .ok s) : Synced dist N data s := by
  unfold runInit at hok
  cases b with
  | false => simp at hok
  | true =>
    simp only [if_true] at hok
    exact (synced_of_em (s := forgy data pick blank) hn hnt hlt hc (fun c => ⟨hpick c, rfl⟩) rfl rfl hok).1

/-- What one iteration does to the medoids. -/
structure Step [AddCommMonoid D] [LinearOrder D] [LinearOrder R] (dist : Row R n → Row R n → D)
    (N : Nat) (data : Nat → Row R n) (draw : Nat → R) (rate : R) (s s' : MState R D k n) : Prop where
  /-- a medoid is kept, or replaced by a sampled row of its own cluster with smaller energy -/
  kept : ∀ c, (s'.cents c = s.cents c ∧ s'.ids c = s.ids c) ∨
    ((s.assign (s'.ids c) = some c ∧ draw (s'.ids c) ≤ rate) ∧
      energyAt dist N data s.assign c (s'.cents c) < energyAt dist N data s.assign c (s.cents c))
  /-- no sampled row of the cluster would have been better -/
  best : ∀ c r, r < N → s.assign r = some c → draw r ≤ rate →
    energyAt dist N data s.assign c (s'.cents c) ≤ energyAt dist N data s.assign c (data r)
  changed : s'.changed = numChanged N s.assign s'.assign

theorem iteration_step [AddCommMonoid D] [LinearOrder D] [LinearOrder R]
    {dist : Row R n → Row R n → D} (hsym : ∀ x y, dist x y = dist y x) (hself : ∀ x, dist x x = 0)
    {big : D} {data : Nat → Row R n} {N nt : Nat} {draw : Nat → R} {rate : R}
    {sched1 sched2 : List Nat} {s s' : MState R D k n} {b : Bool}
    (hn : 0 < N) (hnt : 0 < nt) (hlt : N < 4294967296)
    (hc1 : Complete (effThreads nt N) (threadRows N nt) sched1)
    (hc2 : Complete (effThreads nt N) (threadRows N nt) sched2) (hs : Synced dist N data s)
    (hok : iteration dist big data N nt draw rate sched1 sched2 s = .ok (s', b)) :
    b = true ∧ Synced dist N data s' ∧ Step dist N data draw rate s s' := by
  obtain ⟨agg, h1, h2⟩ := choose_closed dist big data N nt draw rate s hn hnt hlt
    fun r hr => ⟨_, (hs.near r hr).choose_spec.1⟩
  unfold iteration at hok
  rw [h1 sched1 hc1] at hok
  have hnd := List.nodup_finRange k
  by_cases hbad : ∃ c ∈ List.finRange k, (agg c).2 < s.energy c ∧ (agg c).1 = none
  · rw [install_ub _ hnd s hbad] at hok
    simp at hok
  · obtain ⟨s1, e1, hi⟩ := install_ok (data := data) (agg := agg) _ hnd s (by
      intro c hc h
      cases hx : (agg c).1 with
      | none => exact absurd ⟨c, hc, h, hx⟩ hbad
      | some r => exact ⟨r, rfl⟩)
    rw [e1] at hok
    simp only at hok
    rw [if_pos (hi.flag hs.flag)] at hok
    -- facts about the candidates, in terms of energies
    have hce : ∀ c r, candEnergy dist data r (s.members c) =
        energyAt dist N data s.assign c (data r) := by
      intro c r
      rw [hs.members c, candEnergy_eq hsym hself]
    have put : ∀ c, (agg c).2 < s.energy c → ∃ r, r < N ∧ (s.assign r = some c ∧ draw r ≤ rate) ∧
        s1.ids c = r ∧ s1.cents c = data r ∧
        (agg c).2 = energyAt dist N data s.assign c (data r) := by
      intro c h
      obtain ⟨r, hr, g1, g2, -⟩ := hi.put c (List.mem_finRange c) h
      rcases (h2 c).from' with hx | ⟨r', i1, i2, -, i4⟩
      · rw [hx] at hr; simp at hr
      · rw [i4] at hr
        simp only [Option.some.injEq] at hr
        subst hr
        exact ⟨r', i1, ⟨i2.2, i2.1⟩, g2, g1, by rw [i4, ← hce]⟩
    cases hem : emPhase dist big data N nt sched2 { s1 with members := fun _ => [] } with
    | error e => rw [hem] at hok; simp at hok
    | ok s2 =>
      rw [hem] at hok
      simp only [Except.ok.injEq, Prod.mk.injEq] at hok
      obtain ⟨rfl, rfl⟩ := hok
      have hrow1 : ∀ c, s1.ids c < N ∧ s1.cents c = data (s1.ids c) := by
        intro c
        by_cases h : (agg c).2 < s.energy c
        · obtain ⟨r, g1, -, g3, g4, -⟩ := put c h
          rw [g3, g4]; exact ⟨g1, rfl⟩
        · obtain ⟨g1, g2, -⟩ := hi.skip c (Or.inr h)
          rw [g1, g2]; exact hs.row c
      obtain ⟨q1, q2, q3, q4⟩ := synced_of_em (s := { s1 with members := fun _ => [] }) hn hnt hlt hc2
        hrow1 rfl (hi.flag hs.flag) hem
      refine ⟨rfl, q1, ?_, ?_, ?_⟩
      · intro c
        rw [q2, q3]
        by_cases h : (agg c).2 < s.energy c
        · right
          obtain ⟨r, g1, g2, g3, g4, g5⟩ := put c h
          simp only
          rw [g3, g4, ← g5, ← hs.energy c]
          exact ⟨g2, h⟩
        · left
          obtain ⟨g1, g2, -⟩ := hi.skip c (Or.inr h)
          exact ⟨g1, g2⟩
      · intro c r hr hrc hd
        rw [q2]
        have hle := (h2 c).le r hr ⟨hd, hrc⟩
        simp only [hce] at hle
        by_cases h : (agg c).2 < s.energy c
        · obtain ⟨r', g1, g2, g3, g4, g5⟩ := put c h
          simp only
          rw [g4, ← g5]; exact hle
        · obtain ⟨g1, g2, -⟩ := hi.skip c (Or.inr h)
          simp only
          rw [g1, ← hs.energy c]
          exact le_trans (not_lt.1 h) hle
      · rw [q4, ← hi.assign]

theorem total_eq_sum [AddCommMonoid D] (dist : Row R n → Row R n → D) (N : Nat)
    (data : Nat → Row R n) (assign : Nat → Option (Fin k)) (cents : Fin k → Row R n) :
    totalEnergy dist N data assign cents = ∑ c, energyAt dist N data assign c (cents c) := by
  unfold totalEnergy energyAt
  simp only [Finset.sum_filter]
  rw [Finset.sum_comm]
  apply Finset.sum_congr rfl
  intro r _
  cases h : assign r with
  | none => simp
  | some c => simp

theorem step_total [AddCommMonoid D] [LinearOrder D] [IsOrderedCancelAddMonoid D] [LinearOrder R]
    {dist : Row R n → Row R n → D} {data : Nat → Row R n} {N : Nat} {draw : Nat → R} {rate : R}
    {s s' : MState R D k n} (hs : Synced dist N data s) (hs' : Synced dist N data s')
    (h : Step dist N data draw rate s s') :
    totalEnergy dist N data s'.assign s'.cents ≤ totalEnergy dist N data s.assign s.cents ∧
    ((∃ c, s'.cents c ≠ s.cents c) →
      totalEnergy dist N data s'.assign s'.cents < totalEnergy dist N data s.assign s.cents) := by
  have h1 : totalEnergy dist N data s'.assign s'.cents ≤ totalEnergy dist N data s.assign s'.cents := by
    unfold totalEnergy
    apply Finset.sum_le_sum
    intro r hr
    have hrN := Finset.mem_range.1 hr
    obtain ⟨c, e, hc⟩ := hs'.near r hrN
    obtain ⟨c0, e0, -⟩ := hs.near r hrN
    rw [e, e0]
    exact hc.1 c0
  have hle : ∀ c, energyAt dist N data s.assign c (s'.cents c) ≤
      energyAt dist N data s.assign c (s.cents c) := by
    intro c
    rcases h.kept c with hk | hk
    · rw [hk.1]
    · exact hk.2.le
  constructor
  · refine le_trans h1 ?_
    rw [total_eq_sum, total_eq_sum]
    exact Finset.sum_le_sum fun c _ => hle c
  · rintro ⟨c, hc⟩
    refine lt_of_le_of_lt h1 ?_
    rw [total_eq_sum, total_eq_sum]
    refine Finset.sum_lt_sum (fun c _ => hle c) ⟨c, Finset.mem_univ c, ?_⟩
    rcases h.kept c with hk | hk
    · exact absurd hk.1 hc
    · exact hk.2

/-- States the coordinator can be in between iterations: after the initialisation, and after any
number of iterations with any draws and interleavings. -/
inductive Reached [Zero R] [LinearOrder R] [AddCommMonoid D] [LinearOrder D]
    (dist : Row R n → Row R n → D) (big : D) (data : Nat → Row R n) (N nt : Nat) (rate : R) :
    MState R D k n → Prop where
  | start {b pick sched s} (hpick : ∀ c, pick c < N)
      (hc : Complete (effThreads nt N) (threadRows N nt) sched)
      (h : runInit b dist big data N nt pick sched = .ok s) : Reached dist big data N nt rate s
  | step {draw sched1 sched2 s s' b} (hs : Reached dist big data N nt rate s)
      (hc1 : Complete (effThreads nt N) (threadRows N nt) sched1)
      (hc2 : Complete (effThreads nt N) (threadRows N nt) sched2)
      (h : iteration dist big data N nt draw rate sched1 sched2 s = .ok (s', b)) :
      Reached dist big data N nt rate s'

theorem Reached.synced [Zero R] [LinearOrder R] [AddCommMonoid D] [LinearOrder D]
    {dist : Row R n → Row R n → D} (hsym : ∀ x y, dist x y = dist y x) (hself : ∀ x, dist x x = 0)
    {big : D} {data : Nat → Row R n} {N nt : Nat} {rate : R} {s : MState R D k n} (hn : 0 < N)
    (hnt : 0 < nt) (hlt : N < 4294967296) (h : Reached dist big data N nt rate s) :
    Synced dist N data s := by
  induction h with
  | start hpick hc h => exact init_synced hn hnt hlt hc hpick h
  | step _ hc1 hc2 h ih => exact (iteration_step hsym hself hn hnt hlt hc1 hc2 ih h).2.1

/-- **C39 (states).** In every reachable state every medoid is a row of the data set, every row
belongs to its nearest medoid, and the recorded sizes and energies are those of the assignment. -/
theorem C39_medoids_are_rows [Zero R] [LinearOrder R] [AddCommMonoid D] [LinearOrder D]
    (dist : Row R n → Row R n → D) (hsym : ∀ x y, dist x y = dist y x) (hself : ∀ x, dist x x = 0)
    (big : D) (data : Nat → Row R n) (N nt : Nat) (rate : R) (s : MState R D k n) (hn : 0 < N)
    (hnt : 0 < nt) (hlt : N < 4294967296) (h : Reached dist big data N nt rate s) :
    (∀ c, ∃ r, r < N ∧ s.cents c = data r) ∧
    (∀ r, r < N → ∃ c, s.assign r = some c ∧ ∀ c', dist (data r) (s.cents c) ≤ dist (data r) (s.cents c')) ∧
    (∀ c, s.counts c = (((Finset.range N).filter fun r => s.assign r = some c).card : Int)) ∧
    ∀ c, s.energy c =
      ∑ r ∈ (Finset.range N).filter (fun r => s.assign r = some c), dist (data r) (s.cents c) := by
  have hs := h.synced hsym hself hn hnt hlt
  refine ⟨fun c => ⟨s.ids c, hs.row c⟩, ?_, hs.counts, hs.energy⟩
  intro r hr
  obtain ⟨c, e, hc⟩ := hs.near r hr
  exact ⟨c, e, hc.1⟩

/-- **C39 (steps).** An iteration from a reachable state keeps each medoid or replaces it by a sampled row of
the same cluster whose summed distance to the cluster is strictly smaller; no sampled row of the
cluster would have been better; and the total distance of all rows to their medoids does not
increase, strictly decreasing if a medoid was replaced. -/
theorem C39_energy_never_increases [Zero R] [LinearOrder R] [AddCommMonoid D] [LinearOrder D]
    [IsOrderedCancelAddMonoid D]
    (dist : Row R n → Row R n → D) (hsym : ∀ x y, dist x y = dist y x) (hself : ∀ x, dist x x = 0)
    (big : D) (data : Nat → Row R n) (N nt : Nat) (draw : Nat → R) (rate : R)
    (sched1 sched2 : List Nat) (s s' : MState R D k n) (b : Bool) (hn : 0 < N)
    (hnt : 0 < nt) (hlt : N < 4294967296)
    (hc1 : Complete (effThreads nt N) (threadRows N nt) sched1)
    (hc2 : Complete (effThreads nt N) (threadRows N nt) sched2)
    (hs : Reached dist big data N nt rate s)
    (hok : iteration dist big data N nt draw rate sched1 sched2 s = .ok (s', b)) :
    (∀ c, s'.cents c = s.cents c ∨
      ((∃ r, r < N ∧ s.assign r = some c ∧ draw r ≤ rate ∧ s'.cents c = data r) ∧
        energyAt dist N data s.assign c (s'.cents c) < energyAt dist N data s.assign c (s.cents c))) ∧
    (∀ c r, r < N → s.assign r = some c → draw r ≤ rate →
      energyAt dist N data s.assign c (s'.cents c) ≤ energyAt dist N data s.assign c (data r)) ∧
    totalEnergy dist N data s'.assign s'.cents ≤ totalEnergy dist N data s.assign s.cents ∧
    ((∃ c, s'.cents c ≠ s.cents c) →
      totalEnergy dist N data s'.assign s'.cents < totalEnergy dist N data s.assign s.cents) := by
  have hsy := hs.synced hsym hself hn hnt hlt
  obtain ⟨-, h1, h2⟩ := iteration_step hsym hself hn hnt hlt hc1 hc2 hsy hok
  refine ⟨?_, h2.best, step_total hsy h1 h2⟩
  intro c
  rcases h2.kept c with h | h
  · exact Or.inl h.1
  · exact Or.inr ⟨⟨s'.ids c, (h1.row c).1, h.1.1, h.1.2, (h1.row c).2⟩, h.2⟩

/-- The witness: `Reached` holds of its initial state, from which the first iteration succeeds and
replaces medoid 1 (row 1) by row 2. -/
example : ∃ s s' : MState ℚ ℚ 2 1, Reached demoDist 1000 demo 5 2 (1/5 : ℚ) s ∧
    iteration demoDist 1000 demo 5 2 (fun _ => 0) (1/5) demoSched demoSched s = .ok (s', true) ∧
    s.ids 1 = 1 ∧ s'.ids 1 = 2 := by
  have hc : Complete (effThreads 2 5) (threadRows 5 2) demoSched := by
    intro t ht
    have h2 : effThreads 2 5 = 2 := by decide
    have : t = 0 ∨ t = 1 := by omega
    rcases this with rfl | rfl <;> decide
  have hb : (((runInit (k := 2) (D := ℚ) true demoDist 1000 demo 5 2 demoPick demoSched).bind fun s =>
      (iteration demoDist 1000 demo 5 2 (fun _ => 0) (1/5 : ℚ) demoSched demoSched s).map fun p =>
        (s.ids 1, p.1.ids 1, p.2)).toOption) = some (1, 2, true) := by decide +kernel
  cases h1 : runInit (k := 2) (D := ℚ) true demoDist 1000 demo 5 2 demoPick demoSched with
  | error e => rw [h1] at hb; simp [Except.bind, Except.toOption] at hb
  | ok s =>
    rw [h1] at hb
    simp only [Except.bind] at hb
    cases h2 : iteration demoDist 1000 demo 5 2 (fun _ => 0) (1/5 : ℚ) demoSched demoSched s with
    | error e => rw [h2] at hb; simp [Except.map, Except.toOption] at hb
    | ok p =>
      rw [h2] at hb
      obtain ⟨s', b⟩ := p
      simp only [Except.map, Except.toOption, Option.some.injEq, Prod.mk.injEq] at hb
      exact ⟨s, s', .start (pick := demoPick) (fun c => by unfold demoPick; omega) hc h1,
        by rw [h2, hb.2.2], hb.1, hb.2.1⟩

/-- **C39 (schedule).** For given draws an iteration from a reachable state does not depend on the
interleaving of the workers. -/
theorem C39_schedule_irrelevant [Zero R] [LinearOrder R] [AddCommMonoid D] [LinearOrder D]
    (dist : Row R n → Row R n → D) (hsym : ∀ x y, dist x y = dist y x) (hself : ∀ x, dist x x = 0)
    (big : D) (data : Nat → Row R n) (N nt : Nat) (draw : Nat → R) (rate : R)
    (sched1 sched2 sched1' sched2' : List Nat) (s : MState R D k n) (hn : 0 < N)
    (hnt : 0 < nt) (hlt : N < 4294967296)
    (hc1 : Complete (effThreads nt N) (threadRows N nt) sched1)
    (hc2 : Complete (effThreads nt N) (threadRows N nt) sched2)
    (hc1' : Complete (effThreads nt N) (threadRows N nt) sched1')
    (hc2' : Complete (effThreads nt N) (threadRows N nt) sched2')
    (hs : Reached dist big data N nt rate s) :
    iteration dist big data N nt draw rate sched1 sched2 s =
      iteration dist big data N nt draw rate sched1' sched2' s := by
  have hsy := hs.synced hsym hself hn hnt hlt
  obtain ⟨agg, h1, -⟩ := choose_closed dist big data N nt draw rate s hn hnt hlt
    fun r hr => ⟨_, (hsy.near r hr).choose_spec.1⟩
  have hem : ∀ s1 : MState R D k n, emPhase dist big data N nt sched2 s1 =
      emPhase dist big data N nt sched2' s1 := by
    intro s1
    by_cases hb : ∀ r, r < N → ∃ c, dist (data r) (s1.cents c) < big
    · rw [em_closed hn hnt hlt hc2 hb, em_closed hn hnt hlt hc2' hb]
    · simp only [not_forall, not_exists] at hb
      obtain ⟨r0, hr0, hb⟩ := hb
      rw [em_aborts hnt hlt hc2 hr0 hb, em_aborts hnt hlt hc2' hr0 hb]
  unfold iteration
  rw [h1 sched1 hc1, h1 sched1' hc1']
  simp only [hem]

/-! ### Termination -/

/-- Total energy of a choice of medoids: every row goes to its nearest one. -/
noncomputable def energyOf [AddCommMonoid D] [LinearOrder D] (dist : Row R n → Row R n → D)
    (data : Nat → Row R n) (N : Nat) (f : Fin k → Fin N) : D :=
  open Classical in
  totalEnergy dist N data
    (fun r => if h : ∃ c, IsFirstNearest (fun c => dist (data r) (data (f c))) c then some h.choose
      else none) (fun c => data (f c))

theorem energyOf_eq [AddCommMonoid D] [LinearOrder D] {dist : Row R n → Row R n → D}
    {data : Nat → Row R n} {N : Nat} {s : MState R D k n} (hs : Synced dist N data s) :
    energyOf dist data N (fun c => ⟨s.ids c, (hs.row c).1⟩) =
      totalEnergy dist N data s.assign s.cents := by
  have hc : s.cents = fun c => data (s.ids c) := funext fun c => (hs.row c).2
  unfold energyOf totalEnergy
  apply Finset.sum_congr rfl
  intro r hr
  obtain ⟨c, e, hn⟩ := hs.near r (Finset.mem_range.1 hr)
  rw [hc] at hn
  have hex : ∃ c, IsFirstNearest (fun c => dist (data r) (data (s.ids c))) c := ⟨c, hn⟩
  have : hex.choose = c := firstNearest_unique hex.choose_spec hn
  simp only [hex, dif_pos, this, e, hc]

/-- Number of choices of medoids with smaller energy. -/
noncomputable def rank [AddCommMonoid D] [LinearOrder D] (dist : Row R n → Row R n → D)
    (data : Nat → Row R n) (N : Nat) (s : MState R D k n) : Nat :=
  ((Finset.univ : Finset (Fin k → Fin N)).filter fun f =>
    energyOf dist data N f < totalEnergy dist N data s.assign s.cents).card

theorem rank_lt [AddCommMonoid D] [LinearOrder D] {dist : Row R n → Row R n → D}
    {data : Nat → Row R n} {N : Nat} {s s' : MState R D k n} (hs' : Synced dist N data s')
    (h : totalEnergy dist N data s'.assign s'.cents < totalEnergy dist N data s.assign s.cents) :
    rank dist data N s' < rank dist data N s := by
  apply Finset.card_lt_card
  rw [Finset.ssubset_iff_of_subset]
  · refine ⟨fun c => ⟨s'.ids c, (hs'.row c).1⟩, ?_, ?_⟩
    · simp only [Finset.mem_filter, Finset.mem_univ, true_and]
      rw [energyOf_eq hs']; exact h
    · simp only [Finset.mem_filter, Finset.mem_univ, true_and]
      rw [energyOf_eq hs']; exact lt_irrefl _
  · intro f hf
    simp only [Finset.mem_filter, Finset.mem_univ, true_and] at hf ⊢
    exact lt_trans hf h

theorem rank_bound [AddCommMonoid D] [LinearOrder D] {dist : Row R n → Row R n → D}
    {data : Nat → Row R n} {N : Nat} {s : MState R D k n} (hs : Synced dist N data s) :
    rank dist data N s < N ^ k := by
  have : (Finset.univ : Finset (Fin k → Fin N)).card = N ^ k := by simp
  rw [← this]
  apply Finset.card_lt_card
  rw [Finset.ssubset_iff_of_subset (Finset.subset_univ _)]
  refine ⟨fun c => ⟨s.ids c, (hs.row c).1⟩, Finset.mem_univ _, ?_⟩
  simp only [Finset.mem_filter, Finset.mem_univ, true_and]
  rw [energyOf_eq hs]; exact lt_irrefl _

/-- An iteration that leaves the medoids alone changes no row. -/
theorem same_medoids_no_change [AddCommMonoid D] [LinearOrder D] [LinearOrder R]
    {dist : Row R n → Row R n → D} {data : Nat → Row R n} {N : Nat} {draw : Nat → R} {rate : R}
    {s s' : MState R D k n} (hs : Synced dist N data s) (hs' : Synced dist N data s')
    (h : Step dist N data draw rate s s') (hsame : ∀ c, s'.cents c = s.cents c) : s'.changed = 0 := by
  rw [h.changed]
  unfold numChanged
  rw [Finset.card_eq_zero, Finset.filter_eq_empty_iff]
  intro r hr
  obtain ⟨c, e, hc⟩ := hs.near r (Finset.mem_range.1 hr)
  obtain ⟨c', e', hc'⟩ := hs'.near r (Finset.mem_range.1 hr)
  have hcents : s'.cents = s.cents := funext hsame
  rw [hcents] at hc'
  rw [e, e', firstNearest_unique hc hc']
  simp

/-- Data on which nothing can go wrong: the distances to each row sum to less than `big`. -/
def Tame [AddCommMonoid D] [LinearOrder D] (dist : Row R n → Row R n → D) (big : D)
    (data : Nat → Row R n) (N : Nat) : Prop :=
  (∀ x y, 0 ≤ dist x y) ∧ ∀ r0, r0 < N → ∑ r ∈ Finset.range N, dist (data r) (data r0) < big

theorem Tame.dist_lt [AddCommMonoid D] [LinearOrder D] [IsOrderedCancelAddMonoid D]
    {dist : Row R n → Row R n → D} {big : D} {data : Nat → Row R n} {N : Nat}
    (h : Tame dist big data N) {r r0 : Nat} (hr : r < N) (hr0 : r0 < N) :
    dist (data r) (data r0) < big :=
  lt_of_le_of_lt (Finset.single_le_sum (f := fun r => dist (data r) (data r0)) (fun _ _ => h.1 _ _)
    (Finset.mem_range.2 hr)) (h.2 r0 hr0)

theorem Tame.energy_lt [AddCommMonoid D] [LinearOrder D] [IsOrderedCancelAddMonoid D]
    {dist : Row R n → Row R n → D} {big : D} {data : Nat → Row R n} {N : Nat}
    (h : Tame dist big data N) (assign : Nat → Option (Fin k)) (c : Fin k) {r0 : Nat} (hr0 : r0 < N) :
    energyAt dist N data assign c (data r0) < big :=
  lt_of_le_of_lt (Finset.sum_le_sum_of_subset_of_nonneg (Finset.filter_subset _ _)
    (fun _ _ _ => h.1 _ _)) (h.2 r0 hr0)

theorem em_ok [AddCommMonoid D] [LinearOrder D] [IsOrderedCancelAddMonoid D]
    {dist : Row R n → Row R n → D} {big : D} {data : Nat → Row R n} {N nt : Nat} {sched : List Nat}
    {s : MState R D k n} (hk : 0 < k) (hn : 0 < N) (hnt : 0 < nt) (hlt : N < 4294967296)
    (ht : Tame dist big data N) (hc : Complete (effThreads nt N) (threadRows N nt) sched)
    (hrow : ∀ c, s.ids c < N ∧ s.cents c = data (s.ids c)) :
    ∃ s', emPhase dist big data N nt sched s = .ok s' := by
  refine ⟨_, em_closed hn hnt hlt hc ?_⟩
  intro r hr
  refine ⟨⟨0, hk⟩, ?_⟩
  rw [(hrow ⟨0, hk⟩).2]
  exact ht.dist_lt hr (hrow ⟨0, hk⟩).1

theorem iteration_ok [AddCommMonoid D] [LinearOrder D] [IsOrderedCancelAddMonoid D] [LinearOrder R]
    {dist : Row R n → Row R n → D}
    {big : D} {data : Nat → Row R n} {N nt : Nat} {draw : Nat → R} {rate : R}
    {sched1 sched2 : List Nat} {s : MState R D k n} (hk : 0 < k)
    (hn : 0 < N) (hnt : 0 < nt) (hlt : N < 4294967296) (ht : Tame dist big data N)
    (hc1 : Complete (effThreads nt N) (threadRows N nt) sched1)
    (hc2 : Complete (effThreads nt N) (threadRows N nt) sched2) (hs : Synced dist N data s) :
    ∃ s', iteration dist big data N nt draw rate sched1 sched2 s = .ok (s', true) := by
  obtain ⟨agg, h1, h2⟩ := choose_closed dist big data N nt draw rate s hn hnt hlt
    fun r hr => ⟨_, (hs.near r hr).choose_spec.1⟩
  have hsome : ∀ c, (agg c).2 < s.energy c → ∃ r, (agg c).1 = some r ∧ r < N := by
    intro c h
    rcases (h2 c).from' with hx | ⟨r, i1, -, -, i4⟩
    · exfalso
      rw [hx, hs.energy c, (hs.row c).2] at h
      exact lt_asymm h (ht.energy_lt _ c (hs.row c).1)
    · exact ⟨r, by rw [i4], i1⟩
  obtain ⟨s1, e1, hi⟩ := install_ok (data := data) (agg := agg) (List.finRange k)
    (List.nodup_finRange k) s (fun c _ h => (hsome c h).imp fun _ h => h.1)
  have hrow1 : ∀ c, s1.ids c < N ∧ s1.cents c = data (s1.ids c) := by
    intro c
    by_cases h : (agg c).2 < s.energy c
    · obtain ⟨r, hr, g1, g2, -⟩ := hi.put c (List.mem_finRange c) h
      obtain ⟨r', hr', hlt'⟩ := hsome c h
      rw [hr] at hr'
      rw [g1, g2, Option.some.inj hr']
      exact ⟨hlt', rfl⟩
    · obtain ⟨g1, g2, -⟩ := hi.skip c (Or.inr h)
      rw [g1, g2]; exact hs.row c
  obtain ⟨s2, e2⟩ := em_ok (s := { s1 with members := fun _ => [] }) hk hn hnt hlt ht hc2 hrow1
  refine ⟨s2, ?_⟩
  unfold iteration
  rw [h1 sched1 hc1, e1]
  simp only
  rw [if_pos (hi.flag hs.flag), e2]

/-- **C61.** On data whose distances do not overflow, with at least `N^k` iterations allowed, a
k-medoids run from any initial medoids and with any draws and interleavings returns normally
after at most `N^k` iterations because its stopping rule is met; with a negative tolerance that
means that no row changed cluster in the last iteration. -/
theorem C61_terminates [Field R] [LinearOrder R] [IsStrictOrderedRing R] [AddCommMonoid D]
    [LinearOrder D] [IsOrderedCancelAddMonoid D]
    (dist : Row R n → Row R n → D) (hsym : ∀ x y, dist x y = dist y x) (hself : ∀ x, dist x x = 0)
    (big : D) (data : Nat → Row R n) (N nt : Nat) (pick : Fin k → Nat) (draw : Nat → Nat → R)
    (rate tol : R) (maxIters : Nat) (sched0 : List Nat) (sched1 sched2 : Nat → List Nat)
    (hk : 0 < k) (hn : 0 < N) (hnt : 0 < nt) (hlt : N < 4294967296) (ht : Tame dist big data N)
    (hpick : ∀ c, pick c < N) (hc0 : Complete (effThreads nt N) (threadRows N nt) sched0)
    (hc1 : ∀ i, Complete (effThreads nt N) (threadRows N nt) (sched1 i))
    (hc2 : ∀ i, Complete (effThreads nt N) (threadRows N nt) (sched2 i))
    (hmax : N ^ k ≤ maxIters) :
    ∃ res, run true dist big data N nt pick draw rate tol maxIters sched0 sched1 sched2 = .ok res ∧
      1 ≤ res.iters ∧ res.iters ≤ N ^ k ∧
      (res.state.changed = 0 ∨ (res.state.changed : R) / (N : R) ≤ tol) ∧
      (tol < 0 → res.state.changed = 0) ∧
      Reached dist big data N nt (effRate rate) res.state := by
  have main : ∀ m fuel iter (s : MState R D k n), Reached dist big data N nt (effRate rate) s →
      rank dist data N s ≤ m → m < fuel → 1 ≤ iter → iter + m ≤ maxIters →
      ∃ res, loop dist big data N nt draw (effRate rate) tol maxIters sched1 sched2 fuel iter s = .ok res ∧
        1 ≤ res.iters ∧ res.iters ≤ iter + m ∧
        (res.state.changed = 0 ∨ (res.state.changed : R) / (N : R) ≤ tol) ∧
        Reached dist big data N nt (effRate rate) res.state := by
    intro m
    induction m with
    | zero =>
      intro fuel iter s hR hm hf hi hmx
      obtain ⟨fuel, rfl⟩ : ∃ f, fuel = f + 1 := ⟨fuel - 1, by omega⟩
      have hs := hR.synced hsym hself hn hnt hlt
      obtain ⟨s', hok⟩ := iteration_ok (draw := draw iter) (rate := effRate rate) hk hn hnt hlt ht
        (hc1 iter) (hc2 iter) hs
      obtain ⟨-, hs', hst⟩ := iteration_step hsym hself hn hnt hlt (hc1 iter) (hc2 iter) hs hok
      have hR' := Reached.step hR (hc1 iter) (hc2 iter) hok
      have h0 : s'.changed = 0 := by
        apply same_medoids_no_change hs hs' hst
        by_contra hne
        have hne : ∃ c, s'.cents c ≠ s.cents c := by simpa using hne
        have := rank_lt hs' ((step_total hs hs' hst).2 hne)
        omega
      refine ⟨⟨iter, s'⟩, ?_, hi, by simp, Or.inl h0, hR'⟩
      unfold loop
      rw [if_pos (by omega), hok]
      simp only
      rw [if_pos ((convTest_iff N tol _).2 (Or.inl h0))]
    | succ m ih =>
      intro fuel iter s hR hm hf hi hmx
      obtain ⟨fuel, rfl⟩ : ∃ f, fuel = f + 1 := ⟨fuel - 1, by omega⟩
      have hs := hR.synced hsym hself hn hnt hlt
      obtain ⟨s', hok⟩ := iteration_ok (draw := draw iter) (rate := effRate rate) hk hn hnt hlt ht
        (hc1 iter) (hc2 iter) hs
      obtain ⟨-, hs', hst⟩ := iteration_step hsym hself hn hnt hlt (hc1 iter) (hc2 iter) hs hok
      have hR' := Reached.step hR (hc1 iter) (hc2 iter) hok
      unfold loop
      rw [if_pos (by omega), hok]
      simp only
      by_cases hcv : convTest N tol s'.changed = true
      · rw [if_pos hcv]
        exact ⟨⟨iter, s'⟩, rfl, hi, by simp only; omega, (convTest_iff N tol _).1 hcv, hR'⟩
      · rw [if_neg hcv]
        have hne : ∃ c, s'.cents c ≠ s.cents c := by
          by_contra hsame
          have hsame : ∀ c, s'.cents c = s.cents c := by simpa using hsame
          exact hcv ((convTest_iff N tol _).2 (Or.inl (same_medoids_no_change hs hs' hst hsame)))
        have := rank_lt hs' ((step_total hs hs' hst).2 hne)
        obtain ⟨res, g1, g2, g3, g4⟩ := ih fuel (iter + 1) s' hR' (by omega) (by omega) (by omega)
          (by omega)
        exact ⟨res, g1, g2, by omega, g4⟩
  obtain ⟨s0, h0⟩ : ∃ s0, runInit true dist big data N nt pick sched0 = .ok s0 := by
    unfold runInit
    simp only [if_true]
    exact em_ok hk hn hnt hlt ht hc0 fun c => ⟨hpick c, rfl⟩
  have hR0 : Reached dist big data N nt (effRate rate) s0 := .start hpick hc0 h0
  have hb := rank_bound (hR0.synced hsym hself hn hnt hlt)
  have hpos : 0 < N ^ k := Nat.pow_pos hn
  obtain ⟨res, g1, g2, g3, g4, g5⟩ := main (N ^ k - 1) (maxIters + 1) 1 s0 hR0 (by omega) (by omega)
    (le_refl _) (by omega)
  refine ⟨res, ?_, g2, by omega, g4, ?_, g5⟩
  · unfold run
    rw [h0]
    simp only
    rw [if_pos (by omega)]
    exact g1
  · intro htol
    rcases g4 with h | h
    · exact h
    · exfalso
      have : (0 : R) ≤ (res.state.changed : R) / (N : R) := div_nonneg (Nat.cast_nonneg _) (Nat.cast_nonneg _)
      exact absurd (lt_of_le_of_lt h htol) (not_lt.2 this)

/-- The witness's distance and data meet the hypotheses. -/
example : (∀ x y, demoDist x y = demoDist y x) ∧ (∀ x, demoDist x x = 0) ∧
    Tame demoDist 1000 demo 5 := by
  refine ⟨fun x y => abs_sub_comm _ _, fun x => by simp [demoDist], fun x y => abs_nonneg _, ?_⟩
  intro r hr
  have : r = 0 ∨ r = 1 ∨ r = 2 ∨ r = 3 ∨ r = 4 := by omega
  rcases this with rfl | rfl | rfl | rfl | rfl <;> decide +kernel

/-- So do the Euclidean and the taxicab distance (with any `big` above the sums). -/
example : (∀ x y : Row ℝ n, Dist.eucl x y = Dist.eucl y x) ∧ (∀ x : Row ℝ n, Dist.eucl x x = 0) ∧
    (∀ x y : Row ℝ n, Dist.taxi x y = Dist.taxi y x) ∧ (∀ x : Row ℝ n, Dist.taxi x x = 0) :=
  ⟨fun x y => (Dist.C36_euclid_is_metric x y x).2.1,
    fun x => (Dist.C36_euclid_is_metric x x x).2.2.1.2 rfl,
    fun x y => (Dist.C36_taxicab_is_metric x y x).2.1,
    fun x => (Dist.C36_taxicab_is_metric x x x).2.2.1.2 rfl⟩

/-! ### C70: what a settled run has optimised -/

/-- The state a run returns comes from an iteration it performed. -/
theorem loop_last [Field R] [LinearOrder R] [IsStrictOrderedRing R] [AddCommMonoid D] [LinearOrder D]
    {dist : Row R n → Row R n → D} {big : D} {data : Nat → Row R n} {N nt : Nat}
    {draw : Nat → Nat → R} {rate tol : R} {maxIters : Nat} {sched1 sched2 : Nat → List Nat}
    (hc1 : ∀ i, Complete (effThreads nt N) (threadRows N nt) (sched1 i))
    (hc2 : ∀ i, Complete (effThreads nt N) (threadRows N nt) (sched2 i)) :
    ∀ (fuel iter : Nat) (s : MState R D k n) (res : Result R D k n),
      Reached dist big data N nt rate s → iter ≤ maxIters → 1 ≤ iter → maxIters + 1 ≤ fuel + iter →
      loop dist big data N nt draw rate tol maxIters sched1 sched2 fuel iter s = .ok res →
      ∃ s0 b, Reached dist big data N nt rate s0 ∧
        iteration dist big data N nt (draw (min res.iters maxIters)) rate (sched1 (min res.iters maxIters))
          (sched2 (min res.iters maxIters)) s0 = .ok (res.state, b) := by
  intro fuel
  induction fuel with
  | zero => intro iter s res _ h1 _ h3; omega
  | succ fuel ih =>
    intro iter s res hR h1 h2 h3 hok
    unfold loop at hok
    rw [if_pos (by omega)] at hok
    cases hit : iteration dist big data N nt (draw iter) rate (sched1 iter) (sched2 iter) s with
    | error e => rw [hit] at hok; simp at hok
    | ok p =>
      obtain ⟨s', b⟩ := p
      rw [hit] at hok
      have hR' := Reached.step hR (hc1 iter) (hc2 iter) hit
      cases b with
      | false =>
        simp only [Except.ok.injEq] at hok
        subst hok
        exact ⟨s, false, hR, by simp only [min_eq_left h1]; exact hit⟩
      | true =>
        simp only at hok
        by_cases hcv : convTest N tol s'.changed = true
        · rw [if_pos hcv] at hok
          simp only [Except.ok.injEq] at hok
          subst hok
          exact ⟨s, true, hR, by simp only [min_eq_left h1]; exact hit⟩
        · rw [if_neg hcv] at hok
          rcases Nat.lt_or_ge iter maxIters with hl | hl
          · exact ih (iter + 1) s' res hR' hl (by omega) (by omega) hok
          · have he : iter = maxIters := by omega
            subst he
            have hres : res = ⟨iter + 1, s'⟩ := by
              cases fuel with
              | zero => unfold loop at hok; simp only [Except.ok.injEq] at hok; exact hok.symm
              | succ fuel =>
                unfold loop at hok
                rw [if_neg (by omega)] at hok
                simp only [Except.ok.injEq] at hok
                exact hok.symm
            subst hres
            exact ⟨s, true, hR, by simp only [min_eq_right (Nat.le_succ iter)]; exact hit⟩

/-- **C70.**  If no row changed cluster in the last iteration of a run, then every row is in the cluster of
its nearest medoid and no member of a cluster for which the generator returned at most the sampling rate
(the requested rate, but at least one fifth) in that iteration has a smaller summed distance to its
cluster than the medoid.  For any number of threads, draws, interleavings and start. -/
theorem C70_settled_is_optimal [Field R] [LinearOrder R] [IsStrictOrderedRing R] [AddCommMonoid D]
    [LinearOrder D] [IsOrderedCancelAddMonoid D]
    (dist : Row R n → Row R n → D) (hsym : ∀ x y, dist x y = dist y x) (hself : ∀ x, dist x x = 0)
    (big : D) (data : Nat → Row R n) (N nt : Nat) (pick : Fin k → Nat) (draw : Nat → Nat → R)
    (rate tol : R) (maxIters : Nat) (sched0 : List Nat) (sched1 sched2 : Nat → List Nat)
    (hn : 0 < N) (hnt : 0 < nt) (hlt : N < 4294967296)
    (hpick : ∀ c, pick c < N) (hc0 : Complete (effThreads nt N) (threadRows N nt) sched0)
    (hc1 : ∀ i, Complete (effThreads nt N) (threadRows N nt) (sched1 i))
    (hc2 : ∀ i, Complete (effThreads nt N) (threadRows N nt) (sched2 i))
    (hmax : 0 < maxIters) (res : Result R D k n)
    (hok : run true dist big data N nt pick draw rate tol maxIters sched0 sched1 sched2 = .ok res)
    (hch : res.state.changed = 0) :
    (∀ r, r < N → ∃ c, res.state.assign r = some c ∧
      ∀ c', dist (data r) (res.state.cents c) ≤ dist (data r) (res.state.cents c')) ∧
    ∀ c r, r < N → res.state.assign r = some c →
      (draw (min res.iters maxIters) r ≤ 1 / 5 ∨ draw (min res.iters maxIters) r ≤ rate) →
      ∑ r' ∈ (Finset.range N).filter (fun r' => res.state.assign r' = some c),
          dist (data r') (res.state.cents c) ≤
        ∑ r' ∈ (Finset.range N).filter (fun r' => res.state.assign r' = some c),
          dist (data r') (data r) := by
  unfold run at hok
  cases h0 : runInit (k := k) (D := D) true dist big data N nt pick sched0 with
  | error e => rw [h0] at hok; simp at hok
  | ok s =>
    rw [h0] at hok
    simp only at hok
    rw [if_pos hmax] at hok
    obtain ⟨s0, b, hR, hit⟩ := loop_last hc1 hc2 (maxIters + 1) 1 s res
      (.start hpick hc0 h0) (by omega) (le_refl _) (by omega) hok
    have hs := hR.synced hsym hself hn hnt hlt
    obtain ⟨-, hs', hst⟩ := iteration_step hsym hself hn hnt hlt (hc1 _) (hc2 _) hs hit
    have hsame : ∀ r, r < N → s0.assign r = res.state.assign r := by
      have := hst.changed
      rw [hch] at this
      unfold numChanged at this
      have h' := Finset.card_eq_zero.1 this.symm
      rw [Finset.filter_eq_empty_iff] at h'
      intro r hr
      have := h' (Finset.mem_range.2 hr)
      simpa [eq_comm] using this
    refine ⟨fun r hr => ?_, fun c r hr hrc hd => ?_⟩
    · obtain ⟨c, e, hc⟩ := hs'.near r hr
      exact ⟨c, e, hc.1⟩
    · have hb := hst.best c r hr (by rw [hsame r hr]; exact hrc) (by
        unfold effRate
        split
        · exact hd.elim (fun h => h.trans (le_of_lt ‹_›)) id
        · exact hd.elim id fun h => h.trans (not_lt.1 ‹_›))
      have he : ∀ x, energyAt dist N data s0.assign c x = energyAt dist N data res.state.assign c x := by
        intro x
        unfold energyAt
        apply Finset.sum_congr
        · apply Finset.filter_congr
          intro r' hr'
          rw [hsame r' (Finset.mem_range.1 hr')]
        · intros; rfl
      rw [he, he] at hb
      exact hb

/-- The witness run at the top of this file meets the hypotheses: it returns after iteration 3 with no
change, having drawn 0 for every row. -/
example : ((run true demoDist 1000 demo 5 2 demoPick (fun _ _ => 0) (1/5) (-1) 10 demoSched
      (fun _ => demoSched) (fun _ => demoSched)).map fun x => x.state.changed) = .ok 0 := by
  decide +kernel

/-! ### C60: the requested metric -/

/-- Real-valued metrics (the cosine distance, which can be NaN, is not used here).
Models libkcommon/util.hpp:151-166. -/
noncomputable def metricFn : Dist.Metric → Row ℝ n → Row ℝ n → ℝ
  | .taxi => Dist.taxi
  | .sqeucl => Dist.sqeucl
  | _ => Dist.eucl

/-- **C60, the Euclidean metric.**  If the Euclidean distance was requested then in every reachable
state every row belongs to the medoid nearest in the requested metric.  (Missing: false for the other
metrics, see `C60_violated`.) -/
theorem C60_euclidean_partial (big : ℝ) (data : Nat → Row ℝ n) (N nt : Nat) (rate : ℝ)
    (s : MState ℝ ℝ k n) (hn : 0 < N) (hnt : 0 < nt) (hlt : N < 4294967296)
    (h : Reached (metricFn (workerMetric .eucl)) big data N nt rate s) (r : Nat) (hr : r < N) :
    ∃ c, s.assign r = some c ∧
      ∀ c', metricFn .eucl (data r) (s.cents c) ≤ metricFn .eucl (data r) (s.cents c') :=
  (C39_medoids_are_rows (metricFn (workerMetric .eucl))
    (fun x y => (Dist.C36_euclid_is_metric x y x).2.1)
    (fun x => (Dist.C36_euclid_is_metric x x x).2.2.1.2 rfl) big data N nt rate s hn hnt hlt h).2.1 r hr

/-- `Reached` is met with this metric: one row, one medoid. -/
example : ∃ s : MState ℝ ℝ 1 1,
    Reached (metricFn (workerMetric .eucl)) 1 (fun _ _ => 5) 1 1 (1 : ℝ) s := by
  have hc : Complete (effThreads 1 1) (threadRows 1 1) [0] := by
    intro t ht
    have h2 : effThreads 1 1 = 1 := by decide
    have : t = 0 := by omega
    subst this; decide
  have h0 : ∃ s : MState ℝ ℝ 1 1, runInit true (metricFn (workerMetric .eucl)) 1 (fun _ _ => 5) 1 1
      (fun _ => 0) [0] = .ok s := by
    unfold runInit
    simp only [if_true]
    refine ⟨_, em_closed (by omega) (by omega) (by omega) hc ?_⟩
    intro r _
    refine ⟨0, ?_⟩
    simp only [workerMetric, metricFn, forgy]
    rw [(Dist.C36_euclid_is_metric _ _ (fun _ => 5)).2.2.1.2 rfl]
    exact one_pos
  obtain ⟨s, h⟩ := h0
  exact ⟨s, .start (fun _ => Nat.one_pos) hc h⟩

/-- **C60 violated.**  A run in which the user requested the taxicab distance (the program's default)
assigns rows by Euclidean distance: with rows (0,0), (3,3), (5,0), initial medoids at the last two
rows and no iterations, row 0 is given to the first medoid although the second is closer in the
requested metric.  This happens for every number of threads and every interleaving. -/
theorem C60_violated (nt : Nat) (hnt : 0 < nt) (sched0 : List Nat)
    (hc : Complete (effThreads nt 3) (threadRows 3 nt) sched0) (draw : Nat → Nat → ℝ) (rate tol : ℝ)
    (sched1 sched2 : Nat → List Nat) :
    let data : Nat → Row ℝ 2 := fun r j =>
      if r = 0 then 0 else if r = 1 then 3 else if j = 0 then 5 else 0
    ∃ res, run true (metricFn (workerMetric .taxi)) 1000 data 3 nt (fun c : Fin 2 => c + 1) draw rate
        tol 0 sched0 sched1 sched2 = .ok res ∧
      res.state.assign 0 = some 0 ∧
      metricFn .taxi (data 0) (res.state.cents 1) < metricFn .taxi (data 0) (res.state.cents 0) := by
  intro data
  have hd : ∀ x y : Row ℝ 2, Dist.eucl x y = Real.sqrt ((x 0 - y 0) ^ 2 + (x 1 - y 1) ^ 2) := by
    intro x y
    rw [Dist.eucl_eq]
    simp [Fin.sum_univ_two]
  have h1000 : ∀ v : ℝ, v < 1000 ^ 2 → Real.sqrt v < 1000 := fun v h =>
    (Real.sqrt_lt' (by norm_num)).2 h
  have hb : ∀ r, r < 3 → ∃ c : Fin 2, Dist.eucl (data r) (data (c + 1)) < 1000 := by
    intro r hr
    refine ⟨0, ?_⟩
    rw [hd]
    apply h1000
    have : r = 0 ∨ r = 1 ∨ r = 2 := by omega
    rcases this with rfl | rfl | rfl <;> (simp [data]; try norm_num)
  obtain ⟨s1, hem, hasg, hcents⟩ : ∃ s1 : MState ℝ ℝ 2 2,
      emPhase Dist.eucl 1000 data 3 nt sched0 (forgy data (fun c : Fin 2 => (c : Nat) + 1) blank) = .ok s1 ∧
      s1.assign = newAssign Dist.eucl 1000 data 3 (fun c : Fin 2 => data (c + 1)) (fun _ => none) ∧
      s1.cents = fun c : Fin 2 => data (c + 1) :=
    ⟨_, em_closed (by omega) hnt (by omega) hc hb, rfl, rfl⟩
  refine ⟨⟨0, s1⟩, ?_, ?_, ?_⟩
  · unfold run runInit
    simp only [if_true, metricFn, workerMetric]
    rw [hem]
    rfl
  · rw [hasg]
    simp only [newAssign, Nat.zero_lt_succ, if_true]
    refine emScan_eq_of_first ⟨0, ?_⟩ ?_
    rotate_left
    · refine ⟨?_, fun c' _ => Fin.zero_le _⟩
      intro c'
      simp only
      rw [hd, hd]
      apply Real.sqrt_le_sqrt
      fin_cases c' <;> simp [data] <;> norm_num
    · rw [hd]
      apply h1000
      simp [data]; norm_num
  · simp only [metricFn, hcents, Dist.taxi_eq, Fin.sum_univ_two, data]
    norm_num

end Knor.Medoid
