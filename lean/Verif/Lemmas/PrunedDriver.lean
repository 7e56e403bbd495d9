import Verif.Spec.PrunedStart
import Verif.Lemmas.PruneRun
import Verif.Lemmas.Driver
import Verif.Props.Init

namespace Knor.Prune

open Knor Knor.Par Knor.Partition Knor.Spec

variable {R D : Type _} {k n : Nat}

theorem stopsAt_update [Field R] [LinearOrder R] {N : Nat} {tol : R} {tr : Nat → Snap R k n} {i j : Nat} (x : Snap R k n)
    (h : j ≤ i) : StopsAt N tol (Function.update tr (i + 1) x) j ↔ StopsAt N tol tr j := by
  unfold StopsAt
  rw [Function.update_of_ne (show j ≠ i + 1 by omega), Function.update_of_ne (show j - 1 ≠ i + 1 by omega)]

/-- The loop from the state after iteration `i`. -/
theorem loop_lloyd [Field R] [LinearOrder R] [CharZero R] [Field D] [LinearOrder D] [IsStrictOrderedRing D]
    {eucl : Row R n → Row R n → D} {big : D} {data : Nat → Row R n} {N nt : Nat} {tol : R}
    {maxIters : Nat} {sched : Nat → List Nat} {c0 : Fin k → Row R n} (hk : 1 < k)
    (hsym : ∀ x y, eucl x y = eucl y x)
    (htri : ∀ x y z, eucl x z ≤ eucl x y + eucl y z)
    (hn : 0 < N) (hnt : 0 < nt) (hlt : N + 8192 < 4294967296)
    (hc : ∀ i, Complete (effThreads nt N) (taskRows N nt) (sched i)) (fuel : Nat) :
    ∀ i (s : PState R D k n) (tr : Nat → Snap R k n), 1 ≤ i → i ≤ maxIters → maxIters ≤ i + fuel →
    Good eucl data N s → s.changed = 0 → LloydRunAnyTie eucl N data c0 i tr →
    s.cltrs.means = (tr i).cents → (∀ r, r < N → (s.slots r).assign = (tr i).assign r) →
    (∀ c, s.counts c = (Spec.count N (tr i).assign c : Int)) →
    (∀ j, 2 ≤ j → j ≤ i → ¬ StopsAt N tol tr j) →
    ∃ res, loop eucl eucl big data N nt tol maxIters sched fuel (i + 1) s = .ok res ∧
      LloydResultAnyTie eucl N data c0 tol maxIters res := by
  induction fuel with
  | zero =>
    intro i s tr h1 h2 h3 hg h0 htr hm ha hcnt hns
    obtain rfl : i = maxIters := by omega
    exact ⟨_, rfl, i, tr, h1, le_refl _, htr, fun j a b => hns j a (by omega),
      .inr ⟨rfl, rfl, fun h => hns i h (le_refl _)⟩, ha, hm, hcnt⟩
  | succ fuel ih =>
    intro i s tr h1 h2 h3 hg h0 htr hm ha hcnt hns
    unfold loop
    by_cases hgo : i + 1 ≤ maxIters
    · rw [if_pos ⟨hgo, by omega⟩]
      obtain ⟨s2, e, hg2, hpm, hc2, hchg, hnear⟩ := pass_spec (big := big) hk rfl hsym htri hn hnt hlt
        (hc (i + 1)) hg
      rw [e]
      dsimp only
      have hnum : s2.changed = numChanged N (tr i).assign (assignOf s2.slots) := by
        rw [hchg, h0, Nat.zero_add]
        exact Kmeans.numChanged_congr ha fun _ _ => rfl
      have htr2 : LloydRunAnyTie eucl N data c0 (i + 1)
          (Function.update tr (i + 1) ⟨s2.cltrs.means, assignOf s2.slots⟩) := by
        refine ⟨?_, ?_, ?_⟩
        · rw [Function.update_of_ne (by omega)]; exact htr.cents
        · rw [Function.update_of_ne (by omega)]; exact htr.unassigned
        · intro j hj
          rw [Function.update_of_ne (show j ≠ i + 1 by omega)]
          by_cases hji : j = i
          · subst hji
            rw [Function.update_self]
            refine ⟨fun r hr => ?_, fun c j => ?_⟩
            · obtain ⟨_, a, _, q1, q2, _⟩ := hnear r hr
              exact ⟨a, q1, by rw [← hm]; exact q2⟩
            · dsimp only
              rw [hg2.cltrs]
              rfl
          · rw [Function.update_of_ne (show j + 1 ≠ i + 1 by omega)]
            exact htr.step j (by omega)
      have hstop : StopsAt N tol (Function.update tr (i + 1) ⟨s2.cltrs.means, assignOf s2.slots⟩) (i + 1) ↔
          Kmeans.convTest N tol s2.changed = true := by
        rw [Kmeans.convTest_iff, hnum]
        unfold StopsAt
        rw [Function.update_self, Function.update_of_ne (show i + 1 - 1 ≠ i + 1 by omega), Nat.add_sub_cancel]
      have hold : ∀ j, 2 ≤ j → j ≤ i →
          ¬ StopsAt N tol (Function.update tr (i + 1) ⟨s2.cltrs.means, assignOf s2.slots⟩) j := by
        intro j a b
        rw [stopsAt_update _ b]
        exact hns j a b
      have hcnt2 : ∀ c, s2.counts c = (Spec.count N
          ((Function.update tr (i + 1) ⟨s2.cltrs.means, assignOf s2.slots⟩ : Nat → Snap R k n) (i + 1)).assign c : Int) := by
        rw [Function.update_self]
        exact hc2
      by_cases hcv : Kmeans.convTest N tol s2.changed = true
      · rw [if_pos hcv]
        refine ⟨_, rfl, i + 1, _, by omega, hgo, htr2, fun j a b => hold j a (by omega),
          .inl ⟨rfl, by omega, hstop.2 hcv⟩, ?_, ?_, hcnt2⟩
        · rw [Function.update_self]; intro _ _; rfl
        · rw [Function.update_self]
      · rw [if_neg hcv]
        refine ih (i + 1) { s2 with changed := 0 } _ (by omega) hgo (by omega) (hg2.setChanged 0) rfl htr2 ?_ ?_ hcnt2 ?_
        · rw [Function.update_self]
        · rw [Function.update_self]; intro _ _; rfl
        · intro j a b
          by_cases hj : j = i + 1
          · subst hj
            rw [hstop]
            exact hcv
          · exact hold j a (by omega)
    · rw [if_neg (fun h => hgo h.1)]
      obtain rfl : i = maxIters := by omega
      exact ⟨_, rfl, i, tr, h1, le_refl _, htr, fun j a b => hns j a (by omega),
        .inr ⟨rfl, rfl, fun h => hns i h (le_refl _)⟩, ha, hm, hcnt⟩

/-- The hypotheses about the state that the initialisation leaves. -/
structure Started [Field R] [LinearOrder D] (dist : Row R n → Row R n → D) (data : Nat → Row R n) (N : Nat)
    (s : PState R D k n) : Prop where
  wf : DistMatrix.WF k s.dm
  prev : s.prevMeans = fun _ _ => 0
  changed : s.changed = 0
  rows : ∀ r, r < N → (∃ c, dist (data r) (s.cltrs.means c) < (s.slots r).ub) ∨
      ∃ c, (s.slots r).assign = some c ∧ (s.slots r).ub = dist (data r) (s.cltrs.means c)

theorem run_partition [Field R] [LinearOrder R] [CharZero R] [Field D] [LinearOrder D]
    {dist eucl : Row R n → Row R n → D} {big : D} {data : Nat → Row R n} {N nt : Nat} {tol : R}
    {maxIters : Nat} {sched : Nat → List Nat} {s : PState R D k n} (hk : 1 < k)
    (hn : 0 < N) (hnt : 0 < nt) (hlt : N + 8192 < 4294967296)
    (hc : ∀ i, Complete (effThreads nt N) (taskRows N nt) (sched i)) (hs : Started dist data N s)
    (hm : 0 < maxIters) :
    ∃ res, run dist eucl big data N nt tol maxIters sched s = .ok res ∧ IsPartition N data res ∧
      1 < res.iters := by
  obtain ⟨s1, e1, hcons, _⟩ := first_consistent (dist := dist) (eucl := eucl)
    (big := big) (s := s) hn hnt hlt (hc 1) hs.wf hs.rows
  obtain ⟨res, e, hres⟩ := loop_consistent (dist := dist) (eucl := eucl) (big := big) (tol := tol)
    (maxIters := maxIters) hk hn hnt hlt hc maxIters 2 { s1 with changed := 0 }
    ⟨hcons.cltrs, hcons.assigned, hcons.counts, hcons.wf⟩
  refine ⟨res, by unfold run; rw [if_pos hm, e1]; exact e, ⟨hres.assigned, hres.counts, ?_⟩, ?_⟩
  · intro c j
    rw [hres.cltrs]
    rfl
  · have : ∀ fuel i (s : PState R D k n) res, loop dist eucl big data N nt tol maxIters sched fuel i s = .ok res →
        i ≤ res.iters := by
      intro fuel
      induction fuel with
      | zero =>
        intro i s res h
        cases h
        exact le_refl _
      | succ f ih =>
        intro i s res h
        unfold loop at h
        split at h
        · split at h
          · cases h
          · split at h
            · cases h
              exact le_refl _
            · have := ih _ _ _ h
              omega
        · cases h
          exact le_refl _
    exact this _ _ _ _ e

theorem run_lloyd [Field R] [LinearOrder R] [CharZero R] [Field D] [LinearOrder D] [IsStrictOrderedRing D]
    {eucl : Row R n → Row R n → D} {big : D} {data : Nat → Row R n} {N nt : Nat} {tol : R}
    {maxIters : Nat} {sched : Nat → List Nat} {s : PState R D k n} (hk : 1 < k)
    (hsym : ∀ x y, eucl x y = eucl y x)
    (htri : ∀ x y z, eucl x z ≤ eucl x y + eucl y z)
    (hn : 0 < N) (hnt : 0 < nt) (hlt : N + 8192 < 4294967296)
    (hc : ∀ i, Complete (effThreads nt N) (taskRows N nt) (sched i)) (hs : Started eucl data N s)
    (hm : 0 < maxIters) (hmv : SmallFirstMoves eucl N data s.cltrs.means) :
    ∃ res, run eucl eucl big data N nt tol maxIters sched s = .ok res ∧
      LloydResultAnyTie eucl N data s.cltrs.means tol maxIters res := by
  obtain ⟨s1, e1, hcons, hpd, _, hrows⟩ := first_consistent (dist := eucl) (eucl := eucl)
    (big := big) (s := s) hn hnt hlt (hc 1) hs.wf hs.rows
  have htr : LloydRunAnyTie eucl N data s.cltrs.means 1
      (Function.update (fun _ => ⟨s.cltrs.means, fun _ => none⟩) 1 ⟨s1.cltrs.means, assignOf s1.slots⟩) := by
    refine ⟨?_, ?_, ?_⟩
    · rw [Function.update_of_ne (by omega)]
    · rw [Function.update_of_ne (by omega)]; intro _; rfl
    · intro j hj
      obtain rfl : j = 0 := by omega
      rw [Function.update_self, Function.update_of_ne (by omega)]
      refine ⟨fun r hr => ?_, fun c j => ?_⟩
      · obtain ⟨a, q1, _, q2⟩ := hrows r hr
        exact ⟨a, q1, q2⟩
      · dsimp only
        rw [hcons.cltrs]
        rfl
  have hgood : Good eucl data N { s1 with changed := 0 } := by
    refine ⟨hcons.cltrs, hcons.assigned, ?_, hcons.wf⟩
    intro r a hr ha
    obtain ⟨c, h1, h2, _⟩ := hrows r hr
    dsimp only at ha
    rw [h1] at ha
    obtain rfl := Option.some.inj ha
    have hmv1 := hmv _ htr c
    rw [Function.update_self] at hmv1
    dsimp only at hmv1 ⊢
    rw [h2, hpd, hs.prev]
    have := htri (data r) (s.cltrs.means c) (s1.cltrs.means c)
    linarith
  obtain ⟨res, e, h⟩ := loop_lloyd (eucl := eucl) (big := big) (tol := tol) (maxIters := maxIters)
    (sched := sched) (c0 := s.cltrs.means) hk hsym htri hn hnt hlt hc maxIters 1 { s1 with changed := 0 } _
    (le_refl _) hm (by omega) hgood rfl htr (by rw [Function.update_self])
    (by rw [Function.update_self]; intro _ _; rfl) (by rw [Function.update_self]; exact hcons.counts)
    (fun j a b => by omega)
  exact ⟨res, by unfold run; rw [if_pos hm, e1]; exact e, h⟩

/-- A run with one iteration. -/
theorem run_one [Field R] [LinearOrder R] [CharZero R] [Field D] [LinearOrder D]
    {dist eucl : Row R n → Row R n → D} {big : D} {data : Nat → Row R n} {N nt : Nat} {tol : R}
    {sched : Nat → List Nat} {s : PState R D k n}
    (hn : 0 < N) (hnt : 0 < nt) (hlt : N + 8192 < 4294967296)
    (hc : ∀ i, Complete (effThreads nt N) (taskRows N nt) (sched i)) (hs : Started dist data N s) :
    ∃ res, run dist eucl big data N nt tol 1 sched s = .ok res ∧
      ∀ r, r < N → ∃ c, (res.state.slots r).assign = some c ∧
        IsNearest (fun c => dist (data r) (s.cltrs.means c)) c := by
  obtain ⟨s1, e1, _, _, _, hrows⟩ := first_consistent (dist := dist) (eucl := eucl)
    (big := big) (s := s) hn hnt hlt (hc 1) hs.wf hs.rows
  refine ⟨⟨2, false, { s1 with changed := 0 }⟩, ?_, fun r hr => ?_⟩
  · unfold run
    rw [if_pos (by omega), e1]
    rfl
  · obtain ⟨c, q1, _, q2⟩ := hrows r hr
    exact ⟨c, q1, q2⟩

/-! ### Only the rows below `N` matter -/

theorem anyTie_data [Field R] [LinearOrder D] {dist : Row R n → Row R n → D} {N : Nat}
    {data data' : Nat → Row R n} (h : ∀ r, r < N → data r = data' r) {c0 : Fin k → Row R n} {m : Nat}
    {tr : Nat → Snap R k n} (ht : LloydRunAnyTie dist N data c0 m tr) : LloydRunAnyTie dist N data' c0 m tr :=
  ⟨ht.cents, ht.unassigned, fun i hi => ⟨fun r hr => by rw [← h r hr]; exact (ht.step i hi).assigned r hr,
    fun c j => by rw [← Driver.memberMean_data h]; exact (ht.step i hi).means c j⟩⟩

theorem partition_data [Field R] {N : Nat} {data data' : Nat → Row R n} (h : ∀ r, r < N → data r = data' r)
    {res : Result R D k n} (hp : IsPartition N data res) : IsPartition N data' res :=
  ⟨hp.assigned, hp.sizes, fun c j => by rw [hp.means]; exact Driver.memberMean_data h _ c j⟩

theorem lloydResult_data [Field R] [LinearOrder R] [LinearOrder D] {dist : Row R n → Row R n → D} {N : Nat}
    {data data' : Nat → Row R n} (h : ∀ r, r < N → data r = data' r) {c0 : Fin k → Row R n} {tol : R} {maxIters : Nat}
    {res : Result R D k n} (hr : LloydResultAnyTie dist N data c0 tol maxIters res) :
    LloydResultAnyTie dist N data' c0 tol maxIters res := by
  obtain ⟨m, tr, h1, h2, h3, h4⟩ := hr
  exact ⟨m, tr, h1, h2, anyTie_data h h3, h4⟩

/-- Without ties there is only one run. -/
theorem anyTie_unique [Field R] [LinearOrder D] {dist : Row R n → Row R n → D} {N : Nat}
    {data : Nat → Row R n} {c0 : Fin k → Row R n} {m : Nat} {tr tr' : Nat → Snap R k n}
    (ht : LloydTrace dist N data c0 tr) (hnt : NoTies dist N data tr) (ht' : LloydRunAnyTie dist N data c0 m tr') :
    ∀ i, i ≤ m → (tr' i).cents = (tr i).cents ∧ ∀ r, r < N → (tr' i).assign r = (tr i).assign r := by
  intro i
  induction i with
  | zero => exact fun _ => ⟨by rw [ht.cents, ht'.cents], fun r _ => by rw [ht.unassigned, ht'.unassigned]⟩
  | succ i ih =>
    intro hi
    obtain ⟨h1, -⟩ := ih (by omega)
    have hs := ht.step i
    have hs' := ht'.step i (by omega)
    have ha : ∀ r, r < N → (tr' (i + 1)).assign r = (tr (i + 1)).assign r := by
      intro r hr
      obtain ⟨c, e, hc⟩ := hs.assigned r hr
      obtain ⟨c', e', hc'⟩ := hs'.assigned r hr
      rw [e, e', hnt i r c' c hr (by rw [← h1]; exact hc') hc.1]
    refine ⟨?_, ha⟩
    funext c j
    rw [hs.means, hs'.means]
    exact Kmeans.memberMean_congr' ha c j

end Knor.Prune
