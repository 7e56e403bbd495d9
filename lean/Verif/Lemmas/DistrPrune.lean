import Verif.Lemmas.Distr
import Verif.Lemmas.PruneRun

namespace Knor.Distr

open Knor Knor.Par Knor.Partition Knor.Spec

variable {R D : Type _} {k n : Nat}

/-- All ranks hold the same shared state `s`, and each its part of the rows' slots. -/
structure Rel (g np : Nat) (procs : Nat → DProc R D k n) (s : Prune.PState R D k n) : Prop where
  cltrs : ∀ p, p < np → (procs p).core.cltrs = s.cltrs
  prevMeans : ∀ p, p < np → (procs p).core.prevMeans = s.prevMeans
  prevDist : ∀ p, p < np → (procs p).core.prevDist = s.prevDist
  sval : ∀ p, p < np → (procs p).core.sval = s.sval
  dm : ∀ p, p < np → (procs p).core.dm = s.dm
  counts : ∀ p, p < np → (procs p).core.counts = s.counts
  changed : ∀ p, p < np → (procs p).core.changed = s.changed
  slots : ∀ p r, p < np → r < procNrow g np p → (procs p).core.slots r = s.slots (off g np p + r)

theorem slotStep_procData [Field R] [Field D] [LinearOrder D] (dist : Row R n → Row R n → D)
    (big : D) (data : Nat → Row R n) (g np p : Nat) (v : Prune.View R D k n) (pi : Bool) (r : Nat)
    (m : Prune.Slot D k) :
    Prune.slotStep dist big (procData data g np p) v pi r m
      = Prune.slotStep dist big data v pi (off g np p + r) m := rfl

/-- A rank's state after its local pass. -/
def passResult [Field R] (data : Nat → Row R n) (N : Nat) (pi : Bool)
    (c : Prune.PState R D k n) (slots : Nat → Prune.Slot D k) : DProc R D k n :=
  { core :=
      { c with
        prevMeans := c.cltrs.means
        cltrs :=
          { means := fun i j => ∑ r ∈ Finset.range N,
              if pi then (if (slots r).assign = some i then data r j else 0)
              else (if (slots r).assign = some i then data r j else 0)
                - (if (c.slots r).assign = some i then data r j else 0)
            num := fun i => ∑ r ∈ Finset.range N,
              if pi then (if (slots r).assign = some i then 1 else 0)
              else (if (slots r).assign = some i then 1 else 0)
                - (if (c.slots r).assign = some i then 1 else 0)
            complete := fun _ => false }
        slots := slots
        changed := ∑ r ∈ Finset.range N,
          if pi then 1 else if (slots r).assign ≠ (c.slots r).assign then 1 else 0 }
    prevNum := c.cltrs.num }

theorem localPass_closed [Field R] [Field D] [LinearOrder D]
    {dist eucl : Row R n → Row R n → D} {big : D} {data : Nat → Row R n} {N nt : Nat}
    {pi : Bool} {sched : List Nat} {s : DProc R D k n} {c : Prune.PState R D k n}
    (hn : 0 < N) (hnt : 0 < nt) (hlt : N + 8192 < 4294967296)
    (hc : Complete (effThreads nt N) (Prune.taskRows N nt) sched)
    (hcd : Prune.computeDm eucl big s.core = .ok c)
    (hg : ∀ r, r < N → ∃ s', Prune.slotStep dist big data c.view pi r (c.slots r) = .ok s' ∧
      ∃ i, s'.assign = some i)
    (hinv : pi = false → ∀ r, r < N → ∃ i, (c.slots r).assign = some i) :
    ∃ slots, (∀ r, r < N →
        Prune.slotStep dist big data c.view pi r (c.slots r) = .ok (slots r)) ∧
      localPass dist eucl big data N nt pi sched s = .ok (passResult data N pi c slots) := by
  have hsp := Prune.split_taskRows hn hnt hlt
  obtain ⟨q, e, h1, h2, h3⟩ := run_det (α := Kmeans.Acc R k n)
    (f := Prune.emRow dist big data c.view pi) (g := Prune.slotStep dist big data c.view pi)
    (h := Prune.accStep data pi) (fun r m a => by
      rw [Prune.emRow_eq]; cases Prune.slotStep dist big data c.view pi r m <;> rfl)
    (s0 := { mem := c.slots, acc := fun _ => Kmeans.Acc.init, todo := Prune.taskRows N nt })
    hsp hc (fun r hr => by obtain ⟨s', h, _⟩ := hg r hr; exact ⟨s', h⟩)
  have hsome : ∀ r, r < N → ∃ i, (q.mem r).assign = some i := by
    intro r hr
    obtain ⟨s', h, i, hi⟩ := hg r hr
    have := h1 r hr
    simp only at this
    rw [h] at this
    simp only [Except.ok.injEq] at this
    exact ⟨i, by rw [← this]; exact hi⟩
  have hdelta := fun r (hr : r < N) => Prune.accStep_delta data pi r (c.slots r) (q.mem r)
    (hsome r hr) (fun h => hinv h r hr)
  obtain ⟨m1, m2, m3, m4⟩ := Kmeans.merge_delta hsp hdelta q.acc h3 Clusters.empty 0
  refine ⟨q.mem, h1, ?_⟩
  unfold localPass passResult
  rw [hcd]
  simp only
  rw [e]
  simp only
  rw [m1, zero_add]
  congr 3
  apply Clusters.ext
  · funext i j; rw [m3]; exact zero_add _
  · funext i; rw [m4]; exact zero_add _
  · rw [m2]; rfl

/-- A rank's state after the reduction. -/
def afterResult (eucl : Row R n → Row R n → D) (fin : Clusters R k n) (ch : Nat)
    (l : DProc R D k n) : DProc R D k n :=
  { core :=
      { l.core with
        cltrs := fin
        prevDist := fun c => eucl (fin.means c) (l.core.prevMeans c)
        counts := fin.num
        changed := ch }
    prevNum := l.prevNum }

theorem iterationPruned_sim [Field R] [CharZero R] [Field D] [LinearOrder D]
    {dist eucl : Row R n → Row R n → D} {big : D} {data : Nat → Row R n} {g np nt : Nat}
    {first : Bool} {sched : Nat → List Nat} {procs : Nat → DProc R D k n}
    {s s1 : Prune.PState R D k n}
    (hnp : 0 < np) (hgn : np ≤ g) (hnt : 0 < nt) (hlt : g + 8192 < 4294967296)
    (hc : ∀ p, p < np → Complete (effThreads nt (procNrow g np p))
      (Prune.taskRows (procNrow g np p) nt) (sched p))
    (hrel : Rel g np procs s) (hcd : Prune.computeDm eucl big s = .ok s1)
    (hg : ∀ r, r < g → ∃ s', Prune.slotStep dist big data s1.view first r (s1.slots r) = .ok s' ∧
      ∃ i, s'.assign = some i)
    (hinv : first = false → s1.cltrs = Kmeans.clustersOf g data (Prune.assignOf s1.slots) ∧
      ∀ r, r < g → ∃ i, (s1.slots r).assign = some i) :
    ∃ slots procs',
      (∀ r, r < g → Prune.slotStep dist big data s1.view first r (s1.slots r) = .ok (slots r)) ∧
      (∀ r, g ≤ r → slots r = s1.slots r) ∧
      iterationPruned dist eucl big data g np nt first sched procs = .ok procs' ∧
      Rel g np procs' (Prune.iterResult eucl data g first
        { s1 with prevMeans := s1.cltrs.means, changed := 0 } slots) := by
  classical
  -- the shared part after recomputing the table
  obtain ⟨m, sv, hcomp, rfl⟩ : ∃ m sv,
      DistMatrix.computeDist big eucl s.cltrs.means s.dm s.sval = .ok (m, sv) ∧
      s1 = { s with dm := m, sval := sv } := by
    unfold Prune.computeDm at hcd
    split at hcd
    · simp at hcd
    · rename_i m sv h
      simp only [Except.ok.injEq] at hcd
      exact ⟨m, sv, h, hcd.symm⟩
  have hcdp : ∀ p, p < np → Prune.computeDm eucl big (procs p).core
      = .ok { (procs p).core with dm := m, sval := sv } := by
    intro p hp
    unfold Prune.computeDm
    rw [show DistMatrix.computeDist big eucl (procs p).core.cltrs.means (procs p).core.dm
      (procs p).core.sval = .ok (m, sv) by
        rw [hrel.cltrs p hp, hrel.dm p hp, hrel.sval p hp, hcomp]]
  have hview : ∀ p, p < np → Prune.PState.view { (procs p).core with dm := m, sval := sv }
      = Prune.PState.view { s with dm := m, sval := sv } := by
    intro p hp
    simp only [Prune.PState.view, hrel.cltrs p hp, hrel.prevDist p hp]
  choose f hf hfs using hg
  let slots : Nat → Prune.Slot D k := fun r => if h : r < g then f r h else s.slots r
  have hsl : ∀ r, r < g → Prune.slotStep dist big data
      (Prune.PState.view { s with dm := m, sval := sv }) first r (s.slots r) = .ok (slots r) := by
    intro r hr; simp only [slots, hr, dif_pos]; exact hf r hr
  have hsome : ∀ r, r < g → ∃ c, Prune.assignOf slots r = some c := by
    intro r hr; simp only [Prune.assignOf, slots, hr, dif_pos]; exact hfs r hr
  have hloc : ∀ p, p < np → ∃ sl, localPass dist eucl big (procData data g np p)
      (procNrow g np p) nt first (sched p) (procs p) = .ok (passResult (procData data g np p)
        (procNrow g np p) first { (procs p).core with dm := m, sval := sv } sl) ∧
      ∀ r, r < procNrow g np p → sl r = slots (off g np p + r) := by
    intro p hp
    have hle := procNrow_le (g := g) hp
    obtain ⟨sl, h1, h2⟩ := localPass_closed (dist := dist) (eucl := eucl) (big := big)
      (data := procData data g np p) (pi := first) (sched := sched p)
      (procNrow_pos hnp hgn) hnt (by omega) (hc p hp) (hcdp p hp)
      (fun r hr => by
        refine ⟨slots (off g np p + r), ?_, hsome _ (off_lt hp hr)⟩
        rw [slotStep_procData, hview p hp, hrel.slots p r hp hr]
        exact hsl _ (off_lt hp hr))
      (fun h r hr => by
        simp only
        rw [hrel.slots p r hp hr]
        exact (hinv h).2 _ (off_lt hp hr))
    refine ⟨sl, h2, ?_⟩
    intro r hr
    have := h1 r hr
    rw [slotStep_procData, hview p hp] at this
    simp only at this
    rw [hrel.slots p r hp hr, hsl _ (off_lt hp hr)] at this
    simp only [Except.ok.injEq] at this
    exact this.symm
  obtain ⟨loc, e1, h1⟩ := eachRank_ok (np := np) (d := procs) fun p hp => by
    obtain ⟨sl, h, _⟩ := hloc p hp; exact ⟨_, h⟩
  have hl : ∀ p, p < np → ∃ sl, loc p = passResult (procData data g np p)
        (procNrow g np p) first { (procs p).core with dm := m, sval := sv } sl ∧
      ∀ r, r < procNrow g np p → sl r = slots (off g np p + r) := by
    intro p hp
    obtain ⟨sl, h, h'⟩ := hloc p hp
    have := h1 p hp
    rw [h] at this
    simp only [Except.ok.injEq] at this
    exact ⟨sl, this.symm, h'⟩
  have hmeans : ∀ c j, allreduce np (fun p => (loc p).core.cltrs.means c j) =
      ∑ r ∈ Finset.range g, if first then (if (slots r).assign = some c then data r j else 0)
        else (if (slots r).assign = some c then data r j else 0)
          - (if (s.slots r).assign = some c then data r j else 0) := by
    intro c j
    rw [allreduce_eq, ← sum_procs (g := g) hnp]
    apply Finset.sum_congr rfl
    intro p hp
    have hp := Finset.mem_range.1 hp
    obtain ⟨sl, e, h⟩ := hl p hp
    rw [e]
    unfold passResult
    simp only
    apply Finset.sum_congr rfl
    intro r hr
    have hr := Finset.mem_range.1 hr
    rw [h r hr, hrel.slots p r hp hr]
    rfl
  have hnum : ∀ c, allreduce np (fun p => (loc p).core.cltrs.num c) =
      ∑ r ∈ Finset.range g, if first then (if (slots r).assign = some c then (1 : Int) else 0)
        else (if (slots r).assign = some c then 1 else 0)
          - (if (s.slots r).assign = some c then 1 else 0) := by
    intro c
    rw [allreduce_eq, ← sum_procs (g := g) hnp]
    apply Finset.sum_congr rfl
    intro p hp
    have hp := Finset.mem_range.1 hp
    obtain ⟨sl, e, h⟩ := hl p hp
    rw [e]
    unfold passResult
    simp only
    apply Finset.sum_congr rfl
    intro r hr
    have hr := Finset.mem_range.1 hr
    rw [h r hr, hrel.slots p r hp hr]
  have hch : allreduce np (fun p => (loc p).core.changed) =
      if first then g else numChanged g (Prune.assignOf s.slots) (Prune.assignOf slots) := by
    have : allreduce np (fun p => (loc p).core.changed) =
        ∑ r ∈ Finset.range g,
          if first then 1 else if (slots r).assign ≠ (s.slots r).assign then 1 else 0 := by
      rw [allreduce_eq, ← sum_procs (g := g) hnp]
      apply Finset.sum_congr rfl
      intro p hp
      have hp := Finset.mem_range.1 hp
      obtain ⟨sl, e, h⟩ := hl p hp
      rw [e]
      unfold passResult
      simp only
      apply Finset.sum_congr rfl
      intro r hr
      have hr := Finset.mem_range.1 hr
      rw [h r hr, hrel.slots p r hp hr]
    rw [this]
    cases first with
    | true => simp
    | false =>
      simp only [Bool.false_eq_true, if_false]
      rw [Kmeans.numChanged_eq_sum]; rfl
  set fin := Kmeans.clustersOf g data (Prune.assignOf slots) with hfin
  have hafter : ∀ p, p < np → afterReducePruned eucl g first
      (fun c j => allreduce np fun p => (loc p).core.cltrs.means c j)
      (fun c => allreduce np fun p => (loc p).core.cltrs.num c)
      (allreduce np fun p => (loc p).core.changed) (loc p) =
      .ok (afterResult eucl fin (if first then g
        else numChanged g (Prune.assignOf s.slots) (Prune.assignOf slots)) (loc p)) := by
    intro p hp
    obtain ⟨sl, e, h⟩ := hl p hp
    unfold afterReducePruned
    simp only [hch]
    set c : Clusters R k n :=
      if first = true then ((loc p).core.cltrs.setMeans
          fun c j => allreduce np fun p => (loc p).core.cltrs.means c j).setNum
          fun c => allreduce np fun p => (loc p).core.cltrs.num c
      else
        { means := fun c j =>
            (((loc p).core.cltrs.setMeans (loc p).core.prevMeans).setNum
              (loc p).prevNum).setCompleteAll.unfinalizeAll.means c j +
            allreduce np fun p => (loc p).core.cltrs.means c j
          num := fun c =>
            (((loc p).core.cltrs.setMeans (loc p).core.prevMeans).setNum
              (loc p).prevNum).setCompleteAll.unfinalizeAll.num c +
            allreduce np fun p => (loc p).core.cltrs.num c
          complete := (((loc p).core.cltrs.setMeans (loc p).core.prevMeans).setNum
              (loc p).prevNum).setCompleteAll.unfinalizeAll.complete } with hcdef
    have hold : first = false → (((loc p).core.cltrs.setMeans (loc p).core.prevMeans).setNum
        (loc p).prevNum).setCompleteAll = Kmeans.clustersOf g data (Prune.assignOf s.slots) := by
      intro hf
      have h0 := (hinv hf).1
      simp only at h0
      rw [e]
      apply Clusters.ext
      · simp only [passResult, Clusters.setMeans, Clusters.setNum, Clusters.setCompleteAll]
        rw [hrel.cltrs p hp, h0]
      · simp only [passResult, Clusters.setMeans, Clusters.setNum, Clusters.setCompleteAll]
        rw [hrel.cltrs p hp, h0]
      · rfl
    have hcc : ∀ i, c.complete i = false := by
      intro i
      rw [hcdef]
      cases first with
      | true => simp only [if_true]; rw [e]; rfl
      | false =>
        simp only [Bool.false_eq_true, if_false]
        exact Clusters.unfinalizeAll_complete _ i
    have hcm : ∀ i j, c.means i j = memberSum g data (Prune.assignOf slots) i j := by
      intro i j
      rw [hcdef]
      cases first with
      | true =>
        simp only [if_true]
        rw [memberSum_eq]
        have := hmeans i j
        simp only [if_true] at this
        exact this
      | false =>
        simp only [Bool.false_eq_true, if_false]
        rw [hold rfl, (Prune.unfinalize_clustersOf g data _).1, hmeans]
        simp only [Bool.false_eq_true, if_false]
        rw [Finset.sum_sub_distrib, memberSum_eq, memberSum_eq]
        exact add_sub_cancel _ _
    have hcn : ∀ i, c.num i = (Spec.count g (Prune.assignOf slots) i : Int) := by
      intro i
      rw [hcdef]
      cases first with
      | true =>
        simp only [if_true]
        rw [count_eq]
        have := hnum i
        simp only [if_true] at this
        exact this
      | false =>
        simp only [Bool.false_eq_true, if_false]
        rw [hold rfl, (Prune.unfinalize_clustersOf g data _).2.1, hnum]
        simp only [Bool.false_eq_true, if_false]
        rw [Finset.sum_sub_distrib, count_eq, count_eq]
        exact add_sub_cancel _ _
    have hchk : (List.finRange k).foldl (fun m i => m + c.num i) (0 : Int) = (g : Int) := by
      rw [Kmeans.foldl_add_eq, Kmeans.sum_finRange, zero_add]
      simp only [hcn]
      rw [← Nat.cast_sum, Kmeans.sum_count_of_all_assigned g (Prune.assignOf slots) hsome]
    rw [if_neg (by rw [hchk]; simp)]
    have hcf : c.finalizeAll = fin := by
      apply Clusters.ext
      · funext i
        rw [Clusters.finalizeAll_means, Kmeans.finMean_of_counts (hcc i) (hcm i) (hcn i)]; rfl
      · rw [Clusters.finalizeAll_num]; funext i; exact hcn i
      · funext i; rw [Clusters.finalizeAll_complete]; rfl
    rw [hcf]
    rfl
  obtain ⟨procs', e2, h2⟩ := eachRank_ok (np := np) (d := loc) fun p hp => ⟨_, hafter p hp⟩
  have hp' : ∀ p, p < np → procs' p = afterResult eucl fin (if first then g
        else numChanged g (Prune.assignOf s.slots) (Prune.assignOf slots)) (loc p) := fun p hp => by
    have := h2 p hp
    rw [hafter p hp] at this
    simp only [Except.ok.injEq] at this
    exact this.symm
  refine ⟨slots, procs', hsl, ?_, by unfold iterationPruned iterationPrunedBy; rw [e1]; exact e2, ?_⟩
  · intro r hr; simp only [slots]; rw [dif_neg (by omega)]
  have hpm : ∀ p, p < np → (loc p).core.prevMeans = s.cltrs.means := by
    intro p hp
    obtain ⟨sl, e, _⟩ := hl p hp
    rw [e]
    simp only [passResult]
    rw [hrel.cltrs p hp]
  refine ⟨?_, ?_, ?_, ?_, ?_, ?_, ?_, ?_⟩
  · intro p hp; rw [hp' p hp]; rfl
  · intro p hp; rw [hp' p hp]; simp only [Prune.iterResult, ite_self]; exact hpm p hp
  · intro p hp; rw [hp' p hp]; simp only [Prune.iterResult, ite_self, afterResult, hpm p hp]; rfl
  · intro p hp; rw [hp' p hp]; obtain ⟨sl, e, _⟩ := hl p hp; simp only [e]; rfl
  · intro p hp; rw [hp' p hp]; obtain ⟨sl, e, _⟩ := hl p hp; simp only [e]; rfl
  · intro p hp; rw [hp' p hp]; rfl
  · intro p hp; rw [hp' p hp]; simp only [Prune.iterResult, afterResult, zero_add]
  · intro p r hp hr
    rw [hp' p hp]
    obtain ⟨sl, e, h⟩ := hl p hp
    simp only [e]
    exact h r hr

/-- One distributed iteration keeps the bounds valid and assigns every row to a nearest of the
centroids it started from. -/
theorem iterationPruned_good [Field R] [CharZero R] [Field D] [LinearOrder D]
    [IsStrictOrderedRing D]
    {eucl : Row R n → Row R n → D} {big : D} {data : Nat → Row R n} {g np nt : Nat}
    {first : Bool} {sched : Nat → List Nat} {procs : Nat → DProc R D k n}
    {s : Prune.PState R D k n} (hk : 1 < k)
    (hsym : ∀ x y, eucl x y = eucl y x) (htri : ∀ x y z, eucl x z ≤ eucl x y + eucl y z)
    (hnp : 0 < np) (hgn : np ≤ g) (hnt : 0 < nt) (hlt : g + 8192 < 4294967296)
    (hc : ∀ p, p < np → Complete (effThreads nt (procNrow g np p))
      (Prune.taskRows (procNrow g np p) nt) (sched p))
    (hrel : Rel g np procs s) (hwf : DistMatrix.WF k s.dm)
    (hfirst : first = true → ∀ r, r < g → (∃ c, eucl (data r) (s.cltrs.means c) < (s.slots r).ub) ∨
      ∃ c, (s.slots r).assign = some c ∧ (s.slots r).ub = eucl (data r) (s.cltrs.means c))
    (hgood : first = false → Prune.Good eucl data g s) :
    ∃ s' procs', iterationPruned eucl eucl big data g np nt first sched procs = .ok procs' ∧
      Rel g np procs' s' ∧ Prune.Good eucl data g s' ∧ s'.prevMeans = s.cltrs.means ∧
      (∀ c, s'.counts c = (Spec.count g (Prune.assignOf s'.slots) c : Int)) ∧
      s'.changed = (if first then g
        else numChanged g (Prune.assignOf s.slots) (Prune.assignOf s'.slots)) ∧
      ∀ r, r < g → ∃ a, (s'.slots r).assign = some a ∧
        IsNearest (fun c => eucl (data r) (s.cltrs.means c)) a := by
  obtain ⟨m', sv', e, w, g1, g2, _, _⟩ := DistMatrix.computeDist_spec (big := big) (eucl := eucl)
    (cents := s.cltrs.means) hk hsym s.dm s.sval hwf
  set s1 : Prune.PState R D k n := { s with dm := m', sval := sv' } with hs1
  have hcd : Prune.computeDm eucl big s = .ok s1 := by unfold Prune.computeDm; rw [e]
  have hv : Prune.PruneOk eucl eucl big s1.view :=
    ⟨fun _ _ => le_refl _, hsym, htri, ⟨fun a c hac => g1 a c hac⟩, fun a c hac => g2 a c hac⟩
  have hrow : ∀ r, r < g → ∃ s' a', Prune.slotStep eucl big data s1.view first r (s1.slots r) = .ok s' ∧
      s'.assign = some a' ∧ eucl (data r) (s.cltrs.means a') ≤ s'.ub ∧
      IsNearest (fun c => eucl (data r) (s.cltrs.means c)) a' := by
    intro r hr
    cases hf : first with
    | true =>
      obtain ⟨s', c, k1, k2, k3, k4⟩ := Prune.slotStep_init eucl big data s1.view r (s1.slots r)
        (hfirst hf r hr)
      exact ⟨s', c, k1, k2, le_of_eq k3.symm, k4⟩
    | false =>
      have hg := hgood hf
      obtain ⟨a, ha⟩ := hg.assigned r hr
      obtain ⟨s', a', k1, k2, k3, k4, k5⟩ := Prune.slotStep_prune (data := data) hv (r := r)
        (s := s1.slots r) ha (hg.bounds r a hr ha)
      exact ⟨s', a', k1, k2, k3, k4⟩
  obtain ⟨slots, procs', q1, _, q3, q4⟩ := iterationPruned_sim (s1 := s1) hnp hgn hnt hlt hc hrel hcd
    (fun r hr => by obtain ⟨s', a', k1, k2, _⟩ := hrow r hr; exact ⟨s', k1, a', k2⟩)
    (fun h => ⟨(hgood h).cltrs, (hgood h).assigned⟩)
  have hrow' : ∀ r, r < g → ∃ a', (slots r).assign = some a' ∧
      eucl (data r) (s.cltrs.means a') ≤ (slots r).ub ∧
      IsNearest (fun c => eucl (data r) (s.cltrs.means c)) a' := by
    intro r hr
    obtain ⟨s', a', k1, k2, k3, k4⟩ := hrow r hr
    have := q1 r hr
    rw [k1] at this
    simp only [Except.ok.injEq] at this
    subst this
    exact ⟨a', k2, k3, k4⟩
  refine ⟨_, procs', q3, q4, ⟨rfl, ?_, ?_, w⟩, ?_, fun _ => rfl, ?_, ?_⟩
  · intro r hr
    obtain ⟨a', k3, _⟩ := hrow' r hr
    exact ⟨a', k3⟩
  · intro r b hr hb
    obtain ⟨a', k3, k4, _⟩ := hrow' r hr
    simp only [Prune.iterResult, ite_self] at hb ⊢
    rw [k3] at hb
    simp only [Option.some.injEq] at hb
    subst hb
    have ht := htri (data r) (s.cltrs.means a')
      ((Kmeans.clustersOf g data (Prune.assignOf slots)).means a')
    have hs : eucl ((Kmeans.clustersOf g data (Prune.assignOf slots)).means a') (s.cltrs.means a')
        = eucl (s.cltrs.means a') ((Kmeans.clustersOf g data (Prune.assignOf slots)).means a') :=
      hsym _ _
    have hs1m : s1.cltrs.means = s.cltrs.means := rfl
    rw [hs1m, hs]
    linarith
  · simp only [Prune.iterResult, ite_self]; rfl
  · simp only [Prune.iterResult, zero_add]; rfl
  · intro r hr
    obtain ⟨a', k3, _, k5⟩ := hrow' r hr
    exact ⟨a', k3, k5⟩

end Knor.Distr
