import Verif.Lemmas.Prune
import Verif.Lemmas.Lloyd

namespace Knor.Prune

open Knor Knor.Par Knor.Partition Knor.Spec

variable {R D : Type _} {k n : Nat}

/-! ### Totality of the row function -/

theorem pruneLoop_total [LinearOrder D] {big : D} {d : Fin k → D} {dm : DistMatrix D}
    (hw : DistMatrix.WF k dm) (l : List (Fin k)) :
    ∀ st, ∃ st', pruneLoop big d dm l st = .ok st' := by
  induction l with
  | nil => intro st; exact ⟨st, rfl⟩
  | cons c l ih =>
    rintro ⟨a, ub, rc⟩
    obtain ⟨g, hg⟩ : ∃ g, dm.get big a.val c.val = .ok g := by
      by_cases hac : a = c
      · subst hac; exact ⟨big, DistMatrix.get_self big dm a.val⟩
      · obtain ⟨v, hv, _⟩ := DistMatrix.get_eq (big := big) hw a.isLt c.isLt
          (fun h => hac (Fin.ext h))
        exact ⟨v, hv⟩
    rw [pruneLoop, hg]
    simp only
    by_cases h1 : ub ≤ g
    · rw [if_pos h1]; exact ih _
    · rw [if_neg h1]
      by_cases h2 : (if rc = true then ub else d a) ≤ g
      · rw [if_pos h2]; exact ih _
      · rw [if_neg h2]
        by_cases h3 : d c < (if rc = true then ub else d a)
        · rw [if_pos h3]; exact ih _
        · rw [if_neg h3]; exact ih _

theorem slotStep_false_some [Field R] [Field D] [LinearOrder D] {dist : Row R n → Row R n → D}
    {big : D} {data : Nat → Row R n} {v : View R D k n} (hw : DistMatrix.WF k v.dm) {r : Nat}
    {s : Slot D k} {a : Fin k} (ha : s.assign = some a) :
    ∃ s', slotStep dist big data v false r s = .ok s' := by
  unfold slotStep
  simp only [Bool.false_eq_true, if_false, ha]
  split
  · exact ⟨_, rfl⟩
  · obtain ⟨⟨a', ub', rc'⟩, e⟩ := pruneLoop_total (big := big)
      (d := fun c => dist (data r) (v.cents c)) hw (List.finRange k) (a, s.ub + v.prevDist a, false)
    rw [e]
    exact ⟨_, rfl⟩

theorem slotStep_ok [Field R] [Field D] [LinearOrder D] {dist : Row R n → Row R n → D}
    {big : D} {data : Nat → Row R n} {v : View R D k n} {pi : Bool} {r : Nat}
    {s s' : Slot D k} (h : slotStep dist big data v pi r s = .ok s') :
    (∃ c, s'.assign = some c) ∧ (pi = false → ∃ a, s.assign = some a) := by
  unfold slotStep at h
  cases pi with
  | true =>
    simp only [if_true] at h
    refine ⟨?_, by simp⟩
    cases hp : ((List.finRange k).foldl (initStep fun c => dist (data r) (v.cents c))
      (s.ub, s.assign)).2 with
    | none => rw [hp] at h; simp at h
    | some c => rw [hp] at h; simp only [Except.ok.injEq] at h; exact ⟨c, by rw [← h]⟩
  | false =>
    simp only [Bool.false_eq_true, if_false] at h
    cases ha : s.assign with
    | none => rw [ha] at h; simp at h
    | some a =>
      rw [ha] at h
      simp only at h
      refine ⟨?_, fun _ => ⟨a, rfl⟩⟩
      split at h
      · simp only [Except.ok.injEq] at h; exact ⟨a, by rw [← h]⟩
      · split at h
        · simp at h
        · rename_i a' _ _ _
          simp only [Except.ok.injEq] at h; exact ⟨a', by rw [← h]⟩

theorem slotStep_error [Field R] [Field D] [LinearOrder D] {dist : Row R n → Row R n → D}
    {big : D} {data : Nat → Row R n} {v : View R D k n} {pi : Bool}
    (hw : pi = false → DistMatrix.WF k v.dm) {r : Nat}
    {s : Slot D k} {e : Fault} (h : slotStep dist big data v pi r s = .error e) :
    e = if pi then .assertFail else .ub := by
  cases pi with
  | true =>
    unfold slotStep at h
    simp only [if_true] at h
    cases hp : ((List.finRange k).foldl (initStep fun c => dist (data r) (v.cents c))
      (s.ub, s.assign)).2 with
    | none => rw [hp] at h; simp only [Except.error.injEq] at h; simp [← h]
    | some c => rw [hp] at h; simp at h
  | false =>
    cases ha : s.assign with
    | none => unfold slotStep at h; simp only [ha] at h; simp at h; simp [← h]
    | some a =>
      obtain ⟨s', hs'⟩ := slotStep_false_some (dist := dist) (big := big) (data := data)
        (v := v) (hw rfl) (r := r) ha
      rw [hs'] at h; simp at h

/-! ### Independence of threads and schedule -/

/-- Closed form of an iteration in any state: it does not mention threads or schedule. -/
theorem iteration_general [Field R] [Field D] [LinearOrder D]
    {dist eucl : Row R n → Row R n → D} {big : D} {data : Nat → Row R n} {N nt : Nat}
    {pi : Bool} {sched : List Nat} {s : PState R D k n}
    (hn : 0 < N) (hnt : 0 < nt) (hlt : N + 8192 < 4294967296)
    (hc : Complete (effThreads nt N) (taskRows N nt) sched)
    {slots : Nat → Slot D k}
    (h1 : ∀ r, r < N → slotStep dist big data s.view pi r (s.slots r) = .ok (slots r))
    (h2 : ∀ r, N ≤ r → slots r = s.slots r)
    {merged : Clusters R k n} {chg : Nat}
    (hm : merged.complete = (if pi then Clusters.empty else s.cltrs.unfinalizeAll).complete ∧
      (∀ c j, merged.means c j = (if pi then Clusters.empty else s.cltrs.unfinalizeAll).means c j +
        ∑ r ∈ Finset.range N, if pi then (if (slots r).assign = some c then data r j else 0)
        else (if (slots r).assign = some c then data r j else 0)
          - (if (s.slots r).assign = some c then data r j else 0)) ∧
      (∀ c, merged.num c = (if pi then Clusters.empty else s.cltrs.unfinalizeAll).num c +
        ∑ r ∈ Finset.range N, if pi then (if (slots r).assign = some c then 1 else 0)
        else (if (slots r).assign = some c then 1 else 0)
          - (if (s.slots r).assign = some c then 1 else 0)) ∧
      chg = s.changed + ∑ r ∈ Finset.range N,
        if pi then 1 else if (slots r).assign ≠ (s.slots r).assign then 1 else 0) :
    iteration dist eucl big data N nt pi sched s =
      if (List.finRange k).foldl (fun m c => m + merged.finalizeAll.num c) (0 : Int) ≠ N then
        .error .assertFail
      else .ok
        { cltrs := merged.finalizeAll
          prevMeans := if pi then s.prevMeans else s.cltrs.means
          prevDist := fun c => eucl (merged.finalizeAll.means c)
            ((if pi then s.prevMeans else s.cltrs.means) c)
          sval := s.sval, dm := s.dm, slots := slots
          counts := merged.finalizeAll.num, changed := chg } := by
  have hsp := split_taskRows hn hnt hlt
  obtain ⟨p, e, q1, q2, q3⟩ := run_det (α := Kmeans.Acc R k n)
    (f := emRow dist big data s.view pi) (g := slotStep dist big data s.view pi)
    (h := accStep data pi) (fun r m a => by
      rw [emRow_eq]; cases slotStep dist big data s.view pi r m <;> rfl)
    (s0 := { mem := s.slots, acc := fun _ => Kmeans.Acc.init, todo := taskRows N nt })
    hsp hc (fun r hr => ⟨_, h1 r hr⟩)
  have hmem : p.mem = slots := by
    funext r
    by_cases hr : r < N
    · have := q1 r hr
      rw [h1 r hr] at this
      simp only [Except.ok.injEq] at this
      exact this.symm
    · rw [q2 r (by omega), h2 r (by omega)]
  have hdelta := fun r (hr : r < N) => accStep_delta data pi r (s.slots r) (p.mem r)
    (by rw [hmem]; exact (slotStep_ok (h1 r hr)).1) (slotStep_ok (h1 r hr)).2
  obtain ⟨m1, m2, m3, m4⟩ := Kmeans.merge_delta hsp hdelta p.acc q3
    (if pi then Clusters.empty else s.cltrs.unfinalizeAll) s.changed
  have hmer : (List.range (effThreads nt N)).foldl (fun x t => Clusters.peq x (p.acc t).loc)
      (if pi then Clusters.empty else s.cltrs.unfinalizeAll) = merged := by
    apply Clusters.ext
    · funext c j; rw [m3, hm.2.1, hmem]
    · funext c; rw [m4, hm.2.2.1, hmem]
    · rw [m2, hm.1]
  unfold iteration
  rw [e]
  simp only
  unfold updateClusters
  simp only
  rw [hmer, m1, hmem, ← hm.2.2.2]

theorem iteration_indep [Field R] [Field D] [LinearOrder D]
    {dist eucl : Row R n → Row R n → D} {big : D} {data : Nat → Row R n} {N nt nt' : Nat}
    {pi : Bool} {sched sched' : List Nat} {s : PState R D k n}
    (hn : 0 < N) (hnt : 0 < nt) (hnt' : 0 < nt') (hlt : N + 8192 < 4294967296)
    (hc : Complete (effThreads nt N) (taskRows N nt) sched)
    (hc' : Complete (effThreads nt' N) (taskRows N nt') sched')
    (hw : pi = false → DistMatrix.WF k s.dm) :
    iteration dist eucl big data N nt pi sched s = iteration dist eucl big data N nt' pi sched' s := by
  by_cases hall : ∀ r, r < N → ∃ s', slotStep dist big data s.view pi r (s.slots r) = .ok s'
  · classical
    choose f hf using hall
    let slots : Nat → Slot D k := fun r => if h : r < N then f r h else s.slots r
    have h1 : ∀ r, r < N → slotStep dist big data s.view pi r (s.slots r) = .ok (slots r) := by
      intro r hr; simp only [slots, hr, dif_pos]; exact hf r hr
    have h2 : ∀ r, N ≤ r → slots r = s.slots r := by
      intro r hr; simp only [slots]; rw [dif_neg (by omega)]
    let merged : Clusters R k n :=
      { means := fun c j => (if pi then Clusters.empty else s.cltrs.unfinalizeAll).means c j +
        ∑ r ∈ Finset.range N, if pi then (if (slots r).assign = some c then data r j else 0)
        else (if (slots r).assign = some c then data r j else 0)
          - (if (s.slots r).assign = some c then data r j else 0)
        num := fun c => (if pi then Clusters.empty else s.cltrs.unfinalizeAll).num c +
        ∑ r ∈ Finset.range N, if pi then (if (slots r).assign = some c then 1 else 0)
        else (if (slots r).assign = some c then 1 else 0)
          - (if (s.slots r).assign = some c then 1 else 0)
        complete := (if pi then Clusters.empty else s.cltrs.unfinalizeAll).complete }
    rw [iteration_general (merged := merged) hn hnt hlt hc h1 h2
        ⟨rfl, fun _ _ => rfl, fun _ => rfl, rfl⟩,
      iteration_general (merged := merged) hn hnt' hlt hc' h1 h2
        ⟨rfl, fun _ _ => rfl, fun _ => rfl, rfl⟩]
  · push Not at hall
    obtain ⟨r0, hr0, hbad⟩ := hall
    have key : ∀ (m : Nat) (sc : List Nat), 0 < m → Complete (effThreads m N) (taskRows N m) sc →
        iteration dist eucl big data N m pi sc s =
          .error (if pi then .assertFail else .ub) := by
      intro m sc hm hcm
      unfold iteration
      rw [run_det_fails (α := Kmeans.Acc R k n)
        (f := emRow dist big data s.view pi) (g := slotStep dist big data s.view pi)
        (h := accStep data pi) (fun r m a => by
          rw [emRow_eq]; cases slotStep dist big data s.view pi r m <;> rfl)
        (s0 := { mem := s.slots, acc := fun _ => Kmeans.Acc.init, todo := taskRows N m })
        (split_taskRows hn hm hlt) hcm (e0 := if pi then .assertFail else .ub)
        (fun r e _ h => slotStep_error (v := s.view) hw h) hr0 hbad]
    rw [key nt sched hnt hc, key nt' sched' hnt' hc']

theorem of_ite_error {α : Type _} {p : Prop} [Decidable p] {e : Fault} {x y : α}
    (h : (if p then (.error e : Res α) else .ok x) = .ok y) : x = y := by
  by_cases hp : p
  · rw [if_pos hp] at h; simp at h
  · rw [if_neg hp] at h; simpa using h

theorem iteration_dm [Field R] [Field D] [LinearOrder D]
    {dist eucl : Row R n → Row R n → D} {big : D} {data : Nat → Row R n} {N nt : Nat}
    {pi : Bool} {sched : List Nat} {s s' : PState R D k n}
    (h : iteration dist eucl big data N nt pi sched s = .ok s') : s'.dm = s.dm := by
  unfold iteration at h
  split at h
  · simp at h
  · unfold updateClusters at h
    rw [← of_ite_error h]

theorem computeDm_wf [Field D] [LinearOrder D] {eucl : Row R n → Row R n → D} {big : D}
    (hk : 1 < k) {s : PState R D k n} (hw : DistMatrix.WF k s.dm) :
    ∃ m sv, computeDm eucl big s = .ok { s with dm := m, sval := sv } ∧ DistMatrix.WF k m := by
  obtain ⟨m', sv', e, w, _⟩ := DistMatrix.computeLoop_spec (big := big) (eucl := eucl)
    (cents := s.cltrs.means) (DistMatrix.pairs k)
    (fun p hp => DistMatrix.mem_pairs.1 hp) s.dm (fun _ => big) hw
  refine ⟨m', sv', ?_, w⟩
  unfold computeDm DistMatrix.computeDist
  rw [if_neg (by omega), if_neg (by simp [hw.rows]), e]

theorem pass_indep [Field R] [Field D] [LinearOrder D]
    {dist eucl : Row R n → Row R n → D} {big : D} {data : Nat → Row R n} {N nt nt' : Nat}
    {sched sched' : List Nat} {s : PState R D k n} (hk : 1 < k)
    (hn : 0 < N) (hnt : 0 < nt) (hnt' : 0 < nt') (hlt : N + 8192 < 4294967296)
    (hc : Complete (effThreads nt N) (taskRows N nt) sched)
    (hc' : Complete (effThreads nt' N) (taskRows N nt') sched')
    (hw : DistMatrix.WF k s.dm) :
    pass dist eucl big data N nt sched s = pass dist eucl big data N nt' sched' s ∧
    ∀ s', pass dist eucl big data N nt sched s = .ok s' → DistMatrix.WF k s'.dm := by
  obtain ⟨m, sv, e, w⟩ := computeDm_wf (eucl := eucl) (big := big) hk hw
  unfold pass
  rw [e]
  simp only
  refine ⟨iteration_indep hn hnt hnt' hlt hc hc' fun _ => w, ?_⟩
  intro s' h
  rw [iteration_dm h]; exact w

theorem loop_indep [Field R] [LinearOrder R] [Field D] [LinearOrder D]
    {dist eucl : Row R n → Row R n → D} {big : D} {data : Nat → Row R n} {N nt nt' : Nat} {tol : R}
    {maxIters : Nat} {sched sched' : Nat → List Nat} (hk : 1 < k)
    (hn : 0 < N) (hnt : 0 < nt) (hnt' : 0 < nt') (hlt : N + 8192 < 4294967296)
    (hc : ∀ i, Complete (effThreads nt N) (taskRows N nt) (sched i))
    (hc' : ∀ i, Complete (effThreads nt' N) (taskRows N nt') (sched' i)) (fuel : Nat) :
    ∀ iter (s : PState R D k n), DistMatrix.WF k s.dm →
    loop dist eucl big data N nt tol maxIters sched fuel iter s =
      loop dist eucl big data N nt' tol maxIters sched' fuel iter s := by
  induction fuel with
  | zero => intro iter s _; rfl
  | succ fuel ih =>
    intro iter s hw
    obtain ⟨h1, h2⟩ := pass_indep (dist := dist) (eucl := eucl) (big := big) (data := data) hk hn
      hnt hnt' hlt (hc iter) (hc' iter) hw
    unfold loop
    rw [← h1]
    cases hp : pass dist eucl big data N nt (sched iter) s with
    | error e => rfl
    | ok s2 =>
      simp only
      rw [ih (iter + 1) { s2 with changed := 0 } (h2 s2 hp)]

/-! ### The clusters are always those of the assignment -/

/-- Invariant that needs no valid bounds. -/
structure Consistent [Field R] (data : Nat → Row R n) (N : Nat) (s : PState R D k n) : Prop where
  cltrs : s.cltrs = Kmeans.clustersOf N data (assignOf s.slots)
  assigned : ∀ r, r < N → ∃ c, (s.slots r).assign = some c
  counts : ∀ c, s.counts c = (Spec.count N (assignOf s.slots) c : Int)
  wf : DistMatrix.WF k s.dm

theorem pass_consistent [Field R] [CharZero R] [Field D] [LinearOrder D]
    {dist eucl : Row R n → Row R n → D} {big : D} {data : Nat → Row R n} {N nt : Nat}
    {sched : List Nat} {s : PState R D k n} (hk : 1 < k)
    (hn : 0 < N) (hnt : 0 < nt) (hlt : N + 8192 < 4294967296)
    (hc : Complete (effThreads nt N) (taskRows N nt) sched)
    (hcl : s.cltrs = Kmeans.clustersOf N data (assignOf s.slots))
    (hall : ∀ r, r < N → ∃ c, (s.slots r).assign = some c) (hwf : DistMatrix.WF k s.dm) :
    ∃ s', pass dist eucl big data N nt sched s = .ok s' ∧ Consistent data N s' ∧
      s'.prevMeans = s.cltrs.means ∧
      s'.changed = s.changed + numChanged N (assignOf s.slots) (assignOf s'.slots) := by
  obtain ⟨m, sv, e, w⟩ := computeDm_wf (eucl := eucl) (big := big) hk hwf
  obtain ⟨slots, q1, q2, q3⟩ := iteration_closed (dist := dist) (eucl := eucl) (big := big)
    (pi := false) (s := { s with dm := m, sval := sv }) hn hnt hlt hc
    (fun r hr => by
      obtain ⟨a, ha⟩ := hall r hr
      obtain ⟨s', hs'⟩ := slotStep_false_some (dist := dist) (big := big) (data := data)
        (v := PState.view { s with dm := m, sval := sv }) w (r := r) (s := s.slots r) ha
      exact ⟨s', hs', (slotStep_ok hs').1⟩)
    (fun _ => ⟨hcl, hall⟩)
  refine ⟨_, by unfold pass; rw [e]; exact q3, ⟨rfl, ?_, fun _ => rfl, w⟩, rfl, ?_⟩
  · intro r hr; exact (slotStep_ok (q1 r hr)).1
  · simp [iterResult]

theorem first_consistent [Field R] [CharZero R] [Field D] [LinearOrder D]
    {dist eucl : Row R n → Row R n → D} {big : D} {data : Nat → Row R n} {N nt : Nat}
    {sched : List Nat} {s : PState R D k n}
    (hn : 0 < N) (hnt : 0 < nt) (hlt : N + 8192 < 4294967296)
    (hc : Complete (effThreads nt N) (taskRows N nt) sched)
    (hw : DistMatrix.WF k s.dm)
    (hb : ∀ r, r < N → (∃ c, dist (data r) (s.cltrs.means c) < (s.slots r).ub) ∨
      ∃ c, (s.slots r).assign = some c ∧ (s.slots r).ub = dist (data r) (s.cltrs.means c)) :
    ∃ s', iteration dist eucl big data N nt true sched s = .ok s' ∧ Consistent data N s' ∧
      (∀ c, s'.prevDist c = eucl (s'.cltrs.means c) (s.prevMeans c)) ∧
      s'.changed = s.changed + N ∧
      ∀ r, r < N → ∃ c, (s'.slots r).assign = some c ∧
        (s'.slots r).ub = dist (data r) (s.cltrs.means c) ∧
        IsNearest (fun c => dist (data r) (s.cltrs.means c)) c := by
  have hrow := fun r (hr : r < N) => slotStep_init dist big data s.view r (s.slots r) (hb r hr)
  obtain ⟨slots, q1, q2, q3⟩ := iteration_closed (dist := dist) (eucl := eucl) (big := big)
    (pi := true) (s := s) hn hnt hlt hc
    (fun r hr => by obtain ⟨s', c, h1, h2, _⟩ := hrow r hr; exact ⟨s', h1, c, h2⟩)
    (fun h => by simp at h)
  refine ⟨_, q3, ⟨rfl, ?_, fun _ => rfl, hw⟩, fun _ => rfl, by simp [iterResult], ?_⟩
  · intro r hr; exact (slotStep_ok (q1 r hr)).1
  · intro r hr
    obtain ⟨s', c, h1, h2, h3, h4⟩ := hrow r hr
    have := q1 r hr
    rw [h1] at this
    simp only [Except.ok.injEq] at this
    subst this
    exact ⟨c, h2, h3, h4⟩

end Knor.Prune

namespace Knor.Prune

open Knor Knor.Par Knor.Partition Knor.Spec

variable {R D : Type _} {k n : Nat}

theorem iteration_shape [Field R] [Field D] [LinearOrder D]
    {dist eucl : Row R n → Row R n → D} {big : D} {data : Nat → Row R n} {N nt : Nat}
    {pi : Bool} {sched : List Nat} {s s' : PState R D k n}
    (h : iteration dist eucl big data N nt pi sched s = .ok s') :
    ∃ p, Par.run (emRow dist big data s.view pi)
        { mem := s.slots, acc := fun _ => Kmeans.Acc.init, todo := taskRows N nt } sched = .ok p ∧
      s'.slots = p.mem ∧ s'.prevMeans = (if pi then s.prevMeans else s.cltrs.means) ∧
      ∀ c, s'.prevDist c = eucl (s'.cltrs.means c) (s'.prevMeans c) := by
  unfold iteration at h
  split at h
  · simp at h
  · rename_i p hp
    unfold updateClusters at h
    rw [← of_ite_error h]
    exact ⟨p, hp, rfl, rfl, fun c => rfl⟩

/-- The loop keeps sums, counts and assignment consistent, whatever the bounds. -/
theorem loop_consistent [Field R] [LinearOrder R] [CharZero R] [Field D] [LinearOrder D]
    {dist eucl : Row R n → Row R n → D} {big : D} {data : Nat → Row R n} {N nt : Nat} {tol : R}
    {maxIters : Nat} {sched : Nat → List Nat} (hk : 1 < k)
    (hn : 0 < N) (hnt : 0 < nt) (hlt : N + 8192 < 4294967296)
    (hc : ∀ i, Complete (effThreads nt N) (taskRows N nt) (sched i)) (fuel : Nat) :
    ∀ iter (s : PState R D k n), Consistent data N s →
    ∃ res, loop dist eucl big data N nt tol maxIters sched fuel iter s = .ok res ∧
      Consistent data N res.state := by
  induction fuel with
  | zero => intro iter s hs; exact ⟨_, rfl, hs⟩
  | succ fuel ih =>
    intro iter s hs
    obtain ⟨s2, e, h2, _⟩ := pass_consistent (dist := dist) (eucl := eucl) (big := big) hk hn hnt
      hlt (hc iter) hs.cltrs hs.assigned hs.wf
    unfold loop
    by_cases hg : iter ≤ maxIters ∧ 0 < maxIters
    · rw [if_pos hg, e]
      simp only
      by_cases hcv : Kmeans.convTest N tol s2.changed = true
      · rw [if_pos hcv]; exact ⟨_, rfl, h2⟩
      · rw [if_neg hcv]
        exact ih _ _ ⟨h2.cltrs, h2.assigned, h2.counts, h2.wf⟩
    · rw [if_neg hg]; exact ⟨_, rfl, hs⟩

theorem Good.setChanged [Field R] [Field D] [LinearOrder D] {dist : Row R n → Row R n → D}
    {data : Nat → Row R n} {N : Nat} {s : PState R D k n} (h : Good dist data N s) (m : Nat) :
    Good dist data N { s with changed := m } := ⟨h.cltrs, h.assigned, h.bounds, h.wf⟩

theorem loop_exact [Field R] [LinearOrder R] [CharZero R] [Field D] [LinearOrder D]
    [IsStrictOrderedRing D]
    {dist eucl : Row R n → Row R n → D} {big : D} {data : Nat → Row R n} {N nt : Nat} {tol : R}
    {maxIters : Nat} {sched : Nat → List Nat} (hk : 1 < k)
    (hsame : dist = eucl) (hsym : ∀ x y, eucl x y = eucl y x)
    (htri : ∀ x y z, eucl x z ≤ eucl x y + eucl y z)
    (hn : 0 < N) (hnt : 0 < nt) (hlt : N + 8192 < 4294967296)
    (hc : ∀ i, Complete (effThreads nt N) (taskRows N nt) (sched i)) (hmx : 0 < maxIters)
    (fuel : Nat) :
    ∀ iter (s : PState R D k n), Good dist data N s → s.changed = 0 → maxIters < iter + fuel →
    ∃ res, loop dist eucl big data N nt tol maxIters sched fuel iter s = .ok res ∧
      res.iters ≤ max iter (maxIters + 1) ∧
      (iter ≤ maxIters → ∀ r, r < N → ∃ a, (res.state.slots r).assign = some a ∧
        IsNearest (fun c => dist (data r) (res.state.prevMeans c)) a) ∧
      (res.converged = true → (res.state.changed = 0 ∨ (res.state.changed : R) / (N : R) ≤ tol) ∧
        (res.state.changed = 0 → ∀ r, r < N →
        ∃ a, (res.state.slots r).assign = some a ∧
          IsNearest (fun c => dist (data r) (res.state.cltrs.means c)) a)) ∧
      (res.converged = false → res.iters = max iter (maxIters + 1)) := by
  induction fuel with
  | zero =>
    intro iter s _ _ hf
    refine ⟨_, rfl, by simp, fun h => by omega, by simp, fun _ => ?_⟩
    simp only; omega
  | succ fuel ih =>
    intro iter s hs h0 hf
    obtain ⟨s2, e, h2, hpm, _, hchg, hnear⟩ := pass_spec (big := big) hk hsame hsym htri hn hnt hlt
      (hc iter) hs
    unfold loop
    by_cases hg : iter ≤ maxIters ∧ 0 < maxIters
    · rw [if_pos hg, e]
      simp only
      have hnear' : ∀ r, r < N → ∃ a, (s2.slots r).assign = some a ∧
          IsNearest (fun c => dist (data r) (s2.prevMeans c)) a := by
        intro r hr
        obtain ⟨_, a', _, h, h', _⟩ := hnear r hr
        exact ⟨a', h, by rw [hpm]; exact h'⟩
      by_cases hcv : Kmeans.convTest N tol s2.changed = true
      · rw [if_pos hcv]
        refine ⟨_, rfl, by simp, fun _ => hnear', fun _ => ⟨(Kmeans.convTest_iff N tol _).1 hcv, ?_⟩,
          by simp⟩
        intro hz
        simp only at hz
        have hsm : ∀ r, r < N → assignOf s.slots r = assignOf s2.slots r := by
          intro r hr
          have hcard : numChanged N (assignOf s.slots) (assignOf s2.slots) = 0 := by omega
          unfold numChanged at hcard
          rw [Finset.card_eq_zero] at hcard
          by_contra hne
          have : r ∈ (Finset.range N).filter fun r => assignOf s.slots r ≠ assignOf s2.slots r :=
            Finset.mem_filter.2 ⟨Finset.mem_range.2 hr, hne⟩
          rw [hcard] at this
          simp at this
        have hmeans : s2.cltrs.means = s.cltrs.means := by
          rw [h2.cltrs, hs.cltrs]
          funext c j
          exact (memberMean_congr hsm c j).symm
        intro r hr
        obtain ⟨a, h, h'⟩ := hnear' r hr
        exact ⟨a, h, by simp only; rw [hmeans, ← hpm]; exact h'⟩
      · rw [if_neg hcv]
        obtain ⟨res, e', i0, i1, i2, i3⟩ := ih (iter + 1) { s2 with changed := 0 } (h2.setChanged 0)
          rfl (by omega)
        refine ⟨res, e', by omega, ?_, i2, fun h => by rw [i3 h]; omega⟩
        intro _
        by_cases hle : iter + 1 ≤ maxIters
        · exact i1 hle
        · -- the loop stops at once and returns `s2`
          have : loop dist eucl big data N nt tol maxIters sched fuel (iter + 1)
              { s2 with changed := 0 } = .ok ⟨iter + 1, false, { s2 with changed := 0 }⟩ := by
            cases fuel with
            | zero => rfl
            | succ f => unfold loop; rw [if_neg (fun h => hle h.1)]
          rw [this] at e'
          simp only [Except.ok.injEq] at e'
          subst e'
          exact hnear'
    · rw [if_neg hg]
      refine ⟨_, rfl, by simp, fun h => ?_, by simp, fun _ => ?_⟩
      · exact absurd ⟨h, hmx⟩ hg
      · have : ¬ iter ≤ maxIters := fun h => hg ⟨h, hmx⟩
        simp only; omega

end Knor.Prune
