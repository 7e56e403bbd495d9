import Mathlib.Algebra.Order.Field.Basic
import Mathlib.Tactic.Linarith
import Verif.Model.Prune
import Verif.Lemmas.ParDet
import Verif.Lemmas.Kmeans
import Verif.Lemmas.DistMatrix

namespace Knor.Prune

open Knor Knor.Par Knor.Partition Knor.Spec

variable {R D : Type _} {k n : Nat}

/-! ### Rows of a worker -/

theorem taskRows_eq {N nt : Nat} (hnt : 0 < nt) (hn : 0 < N) (hlt : N + 8192 < 4294967296)
    (t : Nat) : taskRows N nt t = Kmeans.threadRows N nt t := by
  unfold taskRows Kmeans.threadRows
  by_cases ht : t < effThreads nt N
  · rw [if_pos ht, if_pos ht]
    have hT := effThreads_pos hnt hn
    have hpart := (blocks_partition hn hnt (by omega : N < 4294967296)).1
    have hmem : ridLen N (effThreads nt N) t ∈ blocks N nt := by
      unfold blocks; exact List.mem_map.2 ⟨t, List.mem_range.2 ht, rfl⟩
    have hpos := hpart _ hmem
    have hle : (ridLen N (effThreads nt N) t).1 + (ridLen N (effThreads nt N) t).2 ≤ N := by
      have hsp := Kmeans.split_threadRows hn hnt (by omega : N < 4294967296)
      have : (ridLen N (effThreads nt N) t).1 + (ridLen N (effThreads nt N) t).2 - 1
          ∈ Kmeans.threadRows N nt t := by
        unfold Kmeans.threadRows
        rw [if_pos ht]
        simp only [List.mem_range'_1]
        omega
      have := (hsp.mem_iff _).1 ⟨t, this⟩
      omega
    set b := ridLen N (effThreads nt N) t with hb
    clear_value b
    have hr : (TaskQueue.mk b.1 b.2 0 false).reset = TaskQueue.mk b.1 b.2 0 true := by
      simp [TaskQueue.reset, hpos]
    obtain ⟨ts, h1, h2, _⟩ := drain_spec b.2 (TaskQueue.mk b.1 b.2 0 true)
      (by simp only; omega) (by simp only; omega) (by simpa using hpos) rfl (by simp)
    simp only
    rw [hr, h1]
    simp only
    have := h2.2
    unfold Spec.rowsOf at this
    rw [List.flatMap_map] at this
    simpa [taskPair] using this
  · rw [if_neg ht, if_neg ht]

theorem split_taskRows {N nt : Nat} (hn : 0 < N) (hnt : 0 < nt) (hlt : N + 8192 < 4294967296) :
    Split N (effThreads nt N) (taskRows N nt) := by
  have : taskRows N nt = Kmeans.threadRows N nt := funext (taskRows_eq hnt hn hlt)
  rw [this]
  exact Kmeans.split_threadRows hn hnt (by omega)

/-! ### The E-step of one row -/

/-- Effect of the E-step on a row's slot, without the accumulators. -/
def slotStep [Add D] [LT D] [DecidableLT D] [LE D] [DecidableLE D] (dist : Row R n → Row R n → D) (big : D)
    (data : Nat → Row R n) (v : View R D k n) (pruneInit : Bool) (r : Nat) (s : Slot D k) :
    Res (Slot D k) :=
  let d : Fin k → D := fun c => dist (data r) (v.cents c)
  if pruneInit then
    let p := (List.finRange k).foldl (initStep d) (s.ub, s.assign)
    match p.2 with
    | none => .error .assertFail
    | some c => .ok { s with assign := some c, ub := p.1 }
  else
    match s.assign with
    | none => .error .ub
    | some a =>
      let ub := s.ub + v.prevDist a
      if ub ≤ v.sval a then .ok { assign := some a, ub := ub, recalc := false }
      else
        match pruneLoop big d v.dm (List.finRange k) (a, ub, false) with
        | .error e => .error e
        | .ok (a', ub', rc') => .ok { assign := some a', ub := ub', recalc := rc' }

/-- Effect of the E-step on the accumulators. -/
def accStep [Add R] [Sub R] (data : Nat → Row R n) (pruneInit : Bool) (r : Nat) (s s' : Slot D k)
    (a : Kmeans.Acc R k n) : Kmeans.Acc R k n :=
  match s'.assign with
  | none => a
  | some y =>
    if pruneInit then { changed := a.changed + 1, loc := a.loc.addMember (data r) y }
    else
      match s.assign with
      | none => a
      | some x =>
        if x ≠ y then { changed := a.changed + 1, loc := a.loc.swapMembership (data r) x y } else a

theorem emRow_eq [Add R] [Sub R] [Add D] [LT D] [DecidableLT D] [LE D] [DecidableLE D]
    (dist : Row R n → Row R n → D) (big : D)
    (data : Nat → Row R n) (v : View R D k n) (pi : Bool) (r : Nat) (s : Slot D k)
    (a : Kmeans.Acc R k n) :
    emRow dist big data v pi r s a = match slotStep dist big data v pi r s with
      | .error e => .error e
      | .ok s' => .ok (s', accStep data pi r s s' a) := by
  unfold emRow slotStep
  cases pi with
  | true =>
    simp only [if_true]
    cases h : ((List.finRange k).foldl (initStep fun c => dist (data r) (v.cents c))
      (s.ub, s.assign)).2 with
    | none => rfl
    | some c => simp [accStep]
  | false =>
    simp only [Bool.false_eq_true, if_false]
    cases h : s.assign with
    | none => rfl
    | some x =>
      simp only
      by_cases hle : s.ub + v.prevDist x ≤ v.sval x
      · simp [hle, accStep, h]
      · simp only [hle, if_false]
        cases hl : pruneLoop big (fun c => dist (data r) (v.cents c)) v.dm (List.finRange k)
          (x, s.ub + v.prevDist x, false) with
        | error e => rfl
        | ok q => simp [accStep, h]

/-! ### Exactness of the scan -/

theorem init_inv [LinearOrder D] (d : Fin k → D) (u : D) (o : Option (Fin k)) (l : List (Fin k)) :
    (l.foldl (initStep d) (u, o) = (u, o) ∧ ∀ c ∈ l, u ≤ d c) ∨
    ∃ c ∈ l, l.foldl (initStep d) (u, o) = (d c, some c) ∧ d c < u ∧ ∀ c' ∈ l, d c ≤ d c' := by
  induction l using List.reverseRecOn with
  | nil => left; simp
  | append_singleton l a ih =>
    rw [List.foldl_append]
    simp only [List.foldl_cons, List.foldl_nil]
    rcases ih with ⟨h1, h2⟩ | ⟨c, hc, h1, h2, h3⟩
    · rw [h1]
      unfold initStep
      by_cases h : d a < u
      · right
        refine ⟨a, by simp, by simp [h], h, ?_⟩
        intro c' hc'
        rcases List.mem_append.1 hc' with hm | hm
        · exact (lt_of_lt_of_le h (h2 c' hm)).le
        · rw [List.mem_singleton] at hm; subst hm; exact le_refl _
      · left
        refine ⟨by simp [h], ?_⟩
        intro c' hc'
        rcases List.mem_append.1 hc' with hm | hm
        · exact h2 c' hm
        · rw [List.mem_singleton] at hm; subst hm; exact not_lt.1 h
    · right
      rw [h1]
      unfold initStep
      by_cases h : d a < d c
      · refine ⟨a, by simp, by simp [h], lt_trans h h2, ?_⟩
        intro c' hc'
        rcases List.mem_append.1 hc' with hm | hm
        · exact (lt_of_lt_of_le h (h3 c' hm)).le
        · rw [List.mem_singleton] at hm; subst hm; exact le_refl _
      · refine ⟨c, List.mem_append_left _ hc, by simp [h], h2, ?_⟩
        intro c' hc'
        rcases List.mem_append.1 hc' with hm | hm
        · exact h3 c' hm
        · rw [List.mem_singleton] at hm; subst hm; exact not_lt.1 h

/-- Initial pass over a row: exact if the row starts with an infinite bound or with an exact one. -/
theorem slotStep_init [Field R] [Field D] [LinearOrder D] (dist : Row R n → Row R n → D) (big : D)
    (data : Nat → Row R n) (v : View R D k n) (r : Nat) (s : Slot D k)
    (h : (∃ c, dist (data r) (v.cents c) < s.ub) ∨
      ∃ c, s.assign = some c ∧ s.ub = dist (data r) (v.cents c)) :
    ∃ s' c, slotStep dist big data v true r s = .ok s' ∧ s'.assign = some c ∧
      s'.ub = dist (data r) (v.cents c) ∧ IsNearest (fun c => dist (data r) (v.cents c)) c := by
  unfold slotStep
  simp only [if_true]
  rcases init_inv (fun c => dist (data r) (v.cents c)) s.ub s.assign (List.finRange k) with
    ⟨h1, h2⟩ | ⟨c, _, h1, _, h3⟩
  · rcases h with ⟨c, hc⟩ | ⟨c, hc, hu⟩
    · exact absurd hc (not_lt.2 (h2 c (List.mem_finRange c)))
    · rw [h1, hc]
      refine ⟨_, c, rfl, rfl, hu, ?_⟩
      intro c'
      show dist (data r) (v.cents c) ≤ dist (data r) (v.cents c')
      rw [← hu]; exact h2 c' (List.mem_finRange c')
  · rw [h1]
    exact ⟨_, c, rfl, rfl, rfl, fun c' => h3 c' (List.mem_finRange c')⟩

/-- The distance table as the E-step sees it. -/
structure DmOk [LinearOrder D] (big : D) (g : Fin k → Fin k → D) (dm : DistMatrix D) : Prop where
  get : ∀ a c : Fin k, a ≠ c → dm.get big a.val c.val = .ok (g a c)

theorem pruneLoop_spec [LinearOrder D] {big : D} {d : Fin k → D} {g : Fin k → Fin k → D}
    {dm : DistMatrix D} (hdm : DmOk big g dm)
    (hp : ∀ a c u, a ≠ c → d a ≤ u → u ≤ g a c → d a ≤ d c) (l : List (Fin k)) :
    ∀ (done : List (Fin k)) (a : Fin k) (ub : D) (rc : Bool), d a ≤ ub → (rc = true → ub = d a) →
      (∀ c ∈ done, d a ≤ d c) →
      ∃ a' ub' rc', pruneLoop big d dm l (a, ub, rc) = .ok (a', ub', rc') ∧ d a' ≤ ub' ∧
        (∀ c ∈ done ++ l, d a' ≤ d c) ∧ (a' ≠ a → d a' < d a) ∧ (rc' = true → ub' = d a') := by
  induction l with
  | nil =>
    intro done a ub rc h1 h2 h3
    exact ⟨a, ub, rc, rfl, h1, by simpa using h3, fun h => absurd rfl h, h2⟩
  | cons c l ih =>
    intro done a ub rc h1 h2 h3
    obtain ⟨gv, hget⟩ : ∃ gv, dm.get big a.val c.val = .ok gv := by
      by_cases hac : a = c
      · subst hac; exact ⟨big, DistMatrix.get_self big dm a.val⟩
      · exact ⟨_, hdm.get a c hac⟩
    have hskip : ∀ u, d a ≤ u → u ≤ gv → d a ≤ d c := by
      intro u hu hg
      by_cases hac : a = c
      · rw [hac]
      · have := hdm.get a c hac
        rw [hget] at this
        simp only [Except.ok.injEq] at this
        exact hp a c u hac hu (this ▸ hg)
    have happ : ∀ a', (∀ x ∈ (done ++ [c]) ++ l, d a' ≤ d x) → ∀ x ∈ done ++ c :: l, d a' ≤ d x := by
      intro a' h x hx; exact h x (by simpa using hx)
    have hext : ∀ {b : Fin k}, (∀ x ∈ done, d b ≤ d x) → d b ≤ d c →
        ∀ x ∈ done ++ [c], d b ≤ d x := by
      intro b hb hbc x hx
      rcases List.mem_append.1 hx with hm | hm
      · exact hb x hm
      · rw [List.mem_singleton] at hm; subst hm; exact hbc
    rw [pruneLoop, hget]
    simp only
    by_cases hle : ub ≤ gv
    · rw [if_pos hle]
      obtain ⟨a', ub', rc', e, k1, k2, k3, k4⟩ :=
        ih (done ++ [c]) a ub rc h1 h2 (hext h3 (hskip ub h1 hle))
      exact ⟨a', ub', rc', e, k1, happ a' k2, k3, k4⟩
    · rw [if_neg hle]
      have hub1 : (if rc = true then ub else d a) = d a := by
        split
        · rename_i h; exact h2 h
        · rfl
      simp only [hub1]
      by_cases hle2 : d a ≤ gv
      · rw [if_pos hle2]
        obtain ⟨a', ub', rc', e, k1, k2, k3, k4⟩ :=
          ih (done ++ [c]) a (d a) true (le_refl _) (fun _ => rfl)
            (hext h3 (hskip (d a) (le_refl _) hle2))
        exact ⟨a', ub', rc', e, k1, happ a' k2, k3, k4⟩
      · rw [if_neg hle2]
        by_cases hj : d c < d a
        · rw [if_pos hj]
          obtain ⟨a', ub', rc', e, k1, k2, k3, k4⟩ :=
            ih (done ++ [c]) c (d c) true (le_refl _) (fun _ => rfl)
              (hext (fun x hx => le_trans hj.le (h3 x hx)) (le_refl _))
          refine ⟨a', ub', rc', e, k1, happ a' k2, ?_, k4⟩
          intro _
          by_cases h : a' = c
          · rw [h]; exact hj
          · exact lt_trans (k3 h) hj
        · rw [if_neg hj]
          obtain ⟨a', ub', rc', e, k1, k2, k3, k4⟩ :=
            ih (done ++ [c]) a (d a) true (le_refl _) (fun _ => rfl) (hext h3 (not_lt.1 hj))
          exact ⟨a', ub', rc', e, k1, happ a' k2, k3, k4⟩

/-- What the algorithm needs of the metric and the table. -/
structure PruneOk [Field D] [LinearOrder D] (dist eucl : Row R n → Row R n → D) (big : D)
    (v : View R D k n) : Prop where
  dom : ∀ x y, eucl x y ≤ dist x y
  symm : ∀ x y, eucl x y = eucl y x
  tri : ∀ x y z, eucl x z ≤ eucl x y + eucl y z
  dm : DmOk big (fun a c => eucl (v.cents a) (v.cents c) / 2) v.dm
  sval : ∀ a c, a ≠ c → v.sval a ≤ eucl (v.cents a) (v.cents c) / 2

theorem prune_rule [Field D] [LinearOrder D] [IsStrictOrderedRing D]
    {dist eucl : Row R n → Row R n → D} {big : D} {v : View R D k n}
    (h : PruneOk dist eucl big v) (x : Row R n) (a c : Fin k) (u : D)
    (h1 : dist x (v.cents a) ≤ u) (h2 : u ≤ eucl (v.cents a) (v.cents c) / 2) :
    dist x (v.cents a) ≤ dist x (v.cents c) := by
  have ht := h.tri (v.cents a) x (v.cents c)
  rw [h.symm (v.cents a) x] at ht
  have d1 := h.dom x (v.cents a)
  have d2 := h.dom x (v.cents c)
  linarith

/-- Pruned pass over a row: exact if the bound is valid. -/
theorem slotStep_prune [Field R] [Field D] [LinearOrder D] [IsStrictOrderedRing D]
    {dist eucl : Row R n → Row R n → D} {big : D}
    {data : Nat → Row R n} {v : View R D k n} (hv : PruneOk dist eucl big v) {r : Nat}
    {s : Slot D k} {a : Fin k} (ha : s.assign = some a)
    (hub : dist (data r) (v.cents a) ≤ s.ub + v.prevDist a) :
    ∃ s' a', slotStep dist big data v false r s = .ok s' ∧ s'.assign = some a' ∧
      dist (data r) (v.cents a') ≤ s'.ub ∧
      IsNearest (fun c => dist (data r) (v.cents c)) a' ∧
      (a' ≠ a → dist (data r) (v.cents a') < dist (data r) (v.cents a)) := by
  unfold slotStep
  simp only [Bool.false_eq_true, if_false, ha]
  by_cases hle : s.ub + v.prevDist a ≤ v.sval a
  · rw [if_pos hle]
    refine ⟨_, a, rfl, rfl, hub, ?_, fun h => absurd rfl h⟩
    intro c
    by_cases hac : a = c
    · rw [hac]
    · exact prune_rule hv (data r) a c _ hub (le_trans hle (hv.sval a c hac))
  · rw [if_neg hle]
    obtain ⟨a', ub', rc', e, k1, k2, k3, _⟩ :=
      pruneLoop_spec (d := fun c => dist (data r) (v.cents c)) hv.dm
        (fun a c u _ h1 h2 => prune_rule hv (data r) a c u h1 h2) (List.finRange k) []
        a (s.ub + v.prevDist a) false hub (by simp) (by simp)
    rw [e]
    exact ⟨_, a', rfl, rfl, k1, fun c => k2 c (by simp), k3⟩

/-! ### The M-step -/

/-- Assignment part of the slots. -/
def assignOf (slots : Nat → Slot D k) : Nat → Option (Fin k) := fun r => (slots r).assign

theorem unfinalize_clustersOf [Field R] [CharZero R] (N : Nat) (data : Nat → Row R n)
    (a : Nat → Option (Fin k)) :
    (∀ c j, (Kmeans.clustersOf N data a).unfinalizeAll.means c j = memberSum N data a c j) ∧
    (∀ c, (Kmeans.clustersOf N data a).unfinalizeAll.num c = (Spec.count N a c : Int)) ∧
    (∀ c, (Kmeans.clustersOf N data a).unfinalizeAll.complete c = false) := by
  refine ⟨?_, fun c => by rw [Clusters.unfinalizeAll_num]; rfl,
    fun c => Clusters.unfinalizeAll_complete _ c⟩
  intro c j
  rw [Clusters.unfinalizeAll_means]
  unfold Clusters.unfinMean Kmeans.clustersOf memberMean
  simp only [if_true]
  by_cases h0 : Spec.count N a c = 0
  · have hempty : memberSum N data a c j = 0 := by
      unfold Spec.count at h0
      rw [Finset.card_eq_zero] at h0
      unfold memberSum
      rw [h0]; simp
    simp [h0, hempty]
  · by_cases h1 : Spec.count N a c = 1
    · simp [h1]
    · have h2 : ¬ ((Spec.count N a c : Int) < 2) := by omega
      rw [if_neg h2]
      have : (Spec.count N a c : R) ≠ 0 := by exact_mod_cast h0
      simp only [h0, if_false, Int.cast_natCast]
      field_simp

/-- The state after an iteration, as a function of the new slots. -/
def iterResult [Field R] (eucl : Row R n → Row R n → D) (data : Nat → Row R n) (N : Nat)
    (pruneInit : Bool) (s : PState R D k n) (slots : Nat → Slot D k) : PState R D k n :=
  let prevMeans := if pruneInit then s.prevMeans else s.cltrs.means
  { cltrs := Kmeans.clustersOf N data (assignOf slots)
    prevMeans := prevMeans
    prevDist := fun c => eucl ((Kmeans.clustersOf N data (assignOf slots)).means c) (prevMeans c)
    sval := s.sval
    dm := s.dm
    slots := slots
    counts := fun c => (Spec.count N (assignOf slots) c : Int)
    changed := s.changed +
      if pruneInit then N else numChanged N (assignOf s.slots) (assignOf slots) }

/-- What one row adds to the accumulators. -/
theorem accStep_delta [Field R] (data : Nat → Row R n) (pi : Bool) (r : Nat) (s s' : Slot D k)
    (hy : ∃ y, s'.assign = some y) (hx : pi = false → ∃ x, s.assign = some x) :
    Kmeans.RowDelta (fun a => accStep data pi r s s' a)
      (fun c j => if pi then (if s'.assign = some c then data r j else 0)
        else (if s'.assign = some c then data r j else 0)
          - (if s.assign = some c then data r j else 0))
      (fun c => if pi then (if s'.assign = some c then 1 else 0)
        else (if s'.assign = some c then 1 else 0)
          - (if s.assign = some c then 1 else 0))
      (if pi then 1 else if s'.assign ≠ s.assign then 1 else 0) := by
  obtain ⟨y, hy⟩ := hy
  cases pi with
  | true =>
    simp only [if_true]
    refine ⟨?_, ?_, ?_⟩
    · intro a; simp [accStep, hy]
    · intro a c j
      simp only [accStep, hy, if_true, Clusters.addMember]
      by_cases hcy : c = y
      · subst hcy; simp
      · simp [Function.update_of_ne hcy, Ne.symm hcy]
    · intro a c
      simp only [accStep, hy, if_true, Clusters.addMember]
      by_cases hcy : c = y
      · subst hcy; simp
      · simp [Function.update_of_ne hcy, Ne.symm hcy]
  | false =>
    obtain ⟨x, hx⟩ := hx rfl
    simp only [Bool.false_eq_true, if_false]
    by_cases hxy : x = y
    · subst hxy
      refine ⟨?_, ?_, ?_⟩ <;> intros <;> simp [accStep, hx, hy]
    · refine ⟨?_, ?_, ?_⟩
      · intro a; simp [accStep, hx, hy, hxy, Ne.symm hxy]
      · intro a c j
        simp only [accStep, hy, hx, Bool.false_eq_true, if_false, ne_eq, hxy, not_false_eq_true,
          if_true, Clusters.swapMembership, Clusters.addMember, Clusters.removeMember]
        by_cases hcy : c = y
        · subst hcy
          simp [Function.update_of_ne (Ne.symm hxy), hxy]
        · by_cases hcx : c = x
          · subst hcx; simp [Function.update_of_ne hcy, Ne.symm hxy]; ring
          · simp [Function.update_of_ne hcy, Function.update_of_ne hcx, Ne.symm hcy, Ne.symm hcx]
      · intro a c
        simp only [accStep, hy, hx, Bool.false_eq_true, if_false, ne_eq, hxy, not_false_eq_true,
          if_true, Clusters.swapMembership, Clusters.addMember, Clusters.removeMember]
        by_cases hcy : c = y
        · subst hcy
          simp [Function.update_of_ne (Ne.symm hxy), hxy]
        · by_cases hcx : c = x
          · subst hcx; simp [Function.update_of_ne hcy, Ne.symm hxy]; ring
          · simp [Function.update_of_ne hcy, Function.update_of_ne hcx, Ne.symm hcy, Ne.symm hcx]

theorem iteration_closed [Field R] [CharZero R] [Field D] [LinearOrder D]
    {dist eucl : Row R n → Row R n → D} {big : D} {data : Nat → Row R n} {N nt : Nat}
    {pi : Bool} {sched : List Nat} {s : PState R D k n}
    (hn : 0 < N) (hnt : 0 < nt) (hlt : N + 8192 < 4294967296)
    (hc : Complete (effThreads nt N) (taskRows N nt) sched)
    (hg : ∀ r, r < N → ∃ s', slotStep dist big data s.view pi r (s.slots r) = .ok s' ∧
      ∃ c, s'.assign = some c)
    (hinv : pi = false → s.cltrs = Kmeans.clustersOf N data (assignOf s.slots) ∧
      ∀ r, r < N → ∃ c, (s.slots r).assign = some c) :
    ∃ slots, (∀ r, r < N → slotStep dist big data s.view pi r (s.slots r) = .ok (slots r)) ∧
      (∀ r, N ≤ r → slots r = s.slots r) ∧
      iteration dist eucl big data N nt pi sched s = .ok (iterResult eucl data N pi s slots) := by
  have hsp := split_taskRows hn hnt hlt
  obtain ⟨p, e, h1, h2, h3⟩ := run_det (α := Kmeans.Acc R k n)
    (f := emRow dist big data s.view pi) (g := slotStep dist big data s.view pi)
    (h := accStep data pi) (fun r m a => by
      rw [emRow_eq]; cases slotStep dist big data s.view pi r m <;> rfl)
    (s0 := { mem := s.slots, acc := fun _ => Kmeans.Acc.init, todo := taskRows N nt })
    hsp hc (fun r hr => by obtain ⟨s', h, _⟩ := hg r hr; exact ⟨s', h⟩)
  have hsome : ∀ r, r < N → ∃ c, (p.mem r).assign = some c := by
    intro r hr
    obtain ⟨s', h, c, hcc⟩ := hg r hr
    have := h1 r hr
    simp only at this
    rw [h] at this
    simp only [Except.ok.injEq] at this
    exact ⟨c, by rw [← this]; exact hcc⟩
  refine ⟨p.mem, h1, h2, ?_⟩
  unfold iteration
  rw [e]
  simp only
  have hdelta := fun r (hr : r < N) => accStep_delta data pi r (s.slots r) (p.mem r) (hsome r hr)
    (fun h => (hinv h).2 r hr)
  obtain ⟨m1, m2, m3, m4⟩ := Kmeans.merge_delta hsp hdelta p.acc h3
    (if pi then Clusters.empty else s.cltrs.unfinalizeAll) s.changed
  set merged := (List.range (effThreads nt N)).foldl (fun x t => Clusters.peq x (p.acc t).loc)
    (if pi then Clusters.empty else s.cltrs.unfinalizeAll) with hmerged
  have hcomp : ∀ c, merged.complete c = false := by
    intro c
    rw [m2]
    cases pi with
    | true => rfl
    | false => exact Clusters.unfinalizeAll_complete _ c
  have hmeans : ∀ c j, merged.means c j = memberSum N data (assignOf p.mem) c j := by
    intro c j
    rw [m3]
    cases pi with
    | true =>
      simp only [if_true]
      rw [memberSum_eq]
      exact zero_add _
    | false =>
      simp only [Bool.false_eq_true, if_false]
      rw [(hinv rfl).1, (unfinalize_clustersOf N data _).1, Finset.sum_sub_distrib,
        memberSum_eq, memberSum_eq]
      exact add_sub_cancel _ _
  have hnum : ∀ c, merged.num c = (Spec.count N (assignOf p.mem) c : Int) := by
    intro c
    rw [m4]
    cases pi with
    | true =>
      simp only [if_true]
      rw [count_eq]
      exact zero_add _
    | false =>
      simp only [Bool.false_eq_true, if_false]
      rw [(hinv rfl).1, (unfinalize_clustersOf N data _).2.1, Finset.sum_sub_distrib,
        count_eq, count_eq]
      exact add_sub_cancel _ _
  have hfin : merged.finalizeAll = Kmeans.clustersOf N data (assignOf p.mem) := by
    apply Clusters.ext
    · funext c
      rw [Clusters.finalizeAll_means, Kmeans.finMean_of_counts (hcomp c) (hmeans c) (hnum c)]; rfl
    · rw [Clusters.finalizeAll_num]; funext c; exact hnum c
    · funext c; rw [Clusters.finalizeAll_complete]; rfl
  unfold updateClusters
  simp only
  rw [← hmerged, hfin]
  have hchk : (List.finRange k).foldl
      (fun m c => m + (Kmeans.clustersOf N data (assignOf p.mem)).num c) (0 : Int) = (N : Int) := by
    rw [Kmeans.foldl_add_eq, Kmeans.sum_finRange, zero_add]
    unfold Kmeans.clustersOf
    simp only
    rw [← Nat.cast_sum, Kmeans.sum_count_of_all_assigned N (assignOf p.mem) hsome]
  rw [if_neg (by rw [hchk]; simp), m1]
  unfold iterResult
  have hchg : (∑ r ∈ Finset.range N,
      (if pi = true then 1 else if (p.mem r).assign ≠ (s.slots r).assign then 1 else 0))
      = if pi = true then N else numChanged N (assignOf s.slots) (assignOf p.mem) := by
    cases pi with
    | true => simp
    | false =>
      simp only [Bool.false_eq_true, if_false]
      rw [Kmeans.numChanged_eq_sum]; rfl
  rw [hchg]
  rfl

/-! ### The main loop -/

/-- Invariant between iterations. -/
structure Good [Field R] [Field D] [LinearOrder D] (dist : Row R n → Row R n → D)
    (data : Nat → Row R n) (N : Nat) (s : PState R D k n) : Prop where
  cltrs : s.cltrs = Kmeans.clustersOf N data (assignOf s.slots)
  assigned : ∀ r, r < N → ∃ c, (s.slots r).assign = some c
  bounds : ∀ r a, r < N → (s.slots r).assign = some a →
    dist (data r) (s.cltrs.means a) ≤ (s.slots r).ub + s.prevDist a
  wf : DistMatrix.WF k s.dm

theorem pass_spec [Field R] [CharZero R] [Field D] [LinearOrder D] [IsStrictOrderedRing D]
    {dist eucl : Row R n → Row R n → D} {big : D} {data : Nat → Row R n} {N nt : Nat}
    {sched : List Nat} {s : PState R D k n} (hk : 1 < k)
    (hsame : dist = eucl) (hsym : ∀ x y, eucl x y = eucl y x)
    (htri : ∀ x y z, eucl x z ≤ eucl x y + eucl y z)
    (hn : 0 < N) (hnt : 0 < nt) (hlt : N + 8192 < 4294967296)
    (hc : Complete (effThreads nt N) (taskRows N nt) sched)
    (hgood : Good dist data N s) :
    ∃ s', pass dist eucl big data N nt sched s = .ok s' ∧ Good dist data N s' ∧
      s'.prevMeans = s.cltrs.means ∧
      (∀ c, s'.counts c = (Spec.count N (assignOf s'.slots) c : Int)) ∧
      s'.changed = s.changed + numChanged N (assignOf s.slots) (assignOf s'.slots) ∧
      (∀ r, r < N → ∃ a a', (s.slots r).assign = some a ∧ (s'.slots r).assign = some a' ∧
        IsNearest (fun c => dist (data r) (s.cltrs.means c)) a' ∧
        (a' ≠ a → dist (data r) (s.cltrs.means a') < dist (data r) (s.cltrs.means a))) := by
  obtain ⟨m', sv', e, w, g1, g2, _, _⟩ := DistMatrix.computeDist_spec (big := big) (eucl := eucl)
    (cents := s.cltrs.means) hk hsym s.dm s.sval hgood.wf
  set s1 : PState R D k n := { s with dm := m', sval := sv' } with hs1
  have hcd : computeDm eucl big s = .ok s1 := by unfold computeDm; rw [e]
  have hv : PruneOk dist eucl big s1.view :=
    ⟨fun _ _ => by rw [hsame], hsym, htri, ⟨fun a c hac => g1 a c hac⟩, fun a c hac => g2 a c hac⟩
  have hrow : ∀ r, r < N → ∃ s' a a', slotStep dist big data s1.view false r (s1.slots r) = .ok s' ∧
      (s.slots r).assign = some a ∧ s'.assign = some a' ∧
      dist (data r) (s.cltrs.means a') ≤ s'.ub ∧
      IsNearest (fun c => dist (data r) (s.cltrs.means c)) a' ∧
      (a' ≠ a → dist (data r) (s.cltrs.means a') < dist (data r) (s.cltrs.means a)) := by
    intro r hr
    obtain ⟨a, ha⟩ := hgood.assigned r hr
    obtain ⟨s', a', k1, k2, k3, k4, k5⟩ := slotStep_prune (data := data) hv (r := r)
      (s := s1.slots r) ha (hgood.bounds r a hr ha)
    exact ⟨s', a, a', k1, ha, k2, k3, k4, k5⟩
  obtain ⟨slots, q1, q2, q3⟩ := iteration_closed (eucl := eucl) (pi := false) (s := s1)
    hn hnt hlt hc
    (fun r hr => by obtain ⟨s', a, a', k1, _, k2, _⟩ := hrow r hr; exact ⟨s', k1, a', k2⟩)
    (fun _ => ⟨hgood.cltrs, hgood.assigned⟩)
  have hrow' : ∀ r, r < N → ∃ a a', (s.slots r).assign = some a ∧ (slots r).assign = some a' ∧
      dist (data r) (s.cltrs.means a') ≤ (slots r).ub ∧
      IsNearest (fun c => dist (data r) (s.cltrs.means c)) a' ∧
      (a' ≠ a → dist (data r) (s.cltrs.means a') < dist (data r) (s.cltrs.means a)) := by
    intro r hr
    obtain ⟨s', a, a', k1, k2, k3, k4, k5, k6⟩ := hrow r hr
    have := q1 r hr
    rw [k1] at this
    simp only [Except.ok.injEq] at this
    subst this
    exact ⟨a, a', k2, k3, k4, k5, k6⟩
  refine ⟨_, by unfold pass; rw [hcd]; exact q3, ⟨rfl, ?_, ?_, w⟩, rfl, fun _ => rfl, ?_, ?_⟩
  · intro r hr
    obtain ⟨a, a', _, k3, _⟩ := hrow' r hr
    exact ⟨a', k3⟩
  · intro r b hr hb
    obtain ⟨a, a', _, k3, k4, _⟩ := hrow' r hr
    simp only [iterResult, Bool.false_eq_true, if_false] at hb ⊢
    rw [k3] at hb
    simp only [Option.some.injEq] at hb
    subst hb
    have ht := htri (data r) (s.cltrs.means a') ((Kmeans.clustersOf N data (assignOf slots)).means a')
    rw [← hsame] at ht ⊢
    rw [hsame] at ht ⊢
    have hs : eucl ((Kmeans.clustersOf N data (assignOf slots)).means a') (s.cltrs.means a')
        = eucl (s.cltrs.means a') ((Kmeans.clustersOf N data (assignOf slots)).means a') :=
      hsym _ _
    have hs1m : s1.cltrs.means = s.cltrs.means := rfl
    rw [hs1m, hs]
    rw [hsame] at k4
    linarith
  · simp [iterResult, hs1]
  · intro r hr
    obtain ⟨a, a', k2, k3, _, k5, k6⟩ := hrow' r hr
    exact ⟨a, a', k2, k3, k5, k6⟩

end Knor.Prune
