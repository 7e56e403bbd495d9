import Mathlib.Analysis.Convex.Hull
import Mathlib.Tactic.Ring
import Verif.Model.MiniBatch
import Verif.Spec.Lloyd
import Verif.Lemmas.PruneRun

namespace Knor.MiniBatch

open Knor Knor.Prune Knor.Par Knor.Partition Knor.Spec

variable {R D : Type _} {k n : Nat}

theorem tally_eq (N : Nat) (a : Nat → Option (Fin k)) (c : Fin k) :
    tally N a c = Spec.count N a c := by
  unfold tally Spec.count
  induction N with
  | zero => simp
  | succ N ih =>
    rw [List.range_succ, List.foldl_append, Finset.range_add_one, Finset.filter_insert]
    simp only [List.foldl_cons, List.foldl_nil]
    cases h : a N with
    | none => simp [ih]
    | some c' =>
      by_cases hc : c' = c
      · subst hc
        simp [ih]
      · have : (some c' : Option (Fin k)) ≠ some c := by simpa using hc
        rw [if_neg this, ← ih]
        simp [Function.update_of_ne (Ne.symm hc)]

theorem finalizeRows_append [Field R] (data : Nat → Row R n) (a : Nat → Option (Fin k))
    (eta : Fin k → R) (l l' : List Nat) : ∀ s : Clusters R k n,
    finalizeRows data a eta (l ++ l') s = match finalizeRows data a eta l s with
      | .error e => .error e
      | .ok s' => finalizeRows data a eta l' s' := by
  induction l with
  | nil => intro s; rfl
  | cons r rs ih =>
    intro s
    simp only [List.cons_append, finalizeRows]
    cases a r with
    | none => rfl
    | some c => exact ih _

theorem finalizeThreads_eq [Field R] (data : Nat → Row R n) (a : Nat → Option (Fin k))
    (eta : Fin k → R) (sel : Nat → List Nat) (ts : List Nat) : ∀ s : Clusters R k n,
    finalizeThreads data a eta sel ts s = finalizeRows data a eta (ts.flatMap sel) s := by
  induction ts with
  | nil => intro s; rfl
  | cons t ts ih =>
    intro s
    rw [List.flatMap_cons, finalizeRows_append]
    simp only [finalizeThreads]
    cases finalizeRows data a eta (sel t) s with
    | error e => rfl
    | ok s' => exact ih s'

theorem finalizeRows_ok [Field R] (data : Nat → Row R n) (a : Nat → Option (Fin k))
    (eta : Fin k → R) (l : List Nat) (h : ∀ r ∈ l, ∃ c, a r = some c) : ∀ s : Clusters R k n,
    ∃ s', finalizeRows data a eta l s = .ok s' := by
  induction l with
  | nil => intro s; exact ⟨s, rfl⟩
  | cons r rs ih =>
    intro s
    obtain ⟨c, hc⟩ := h r List.mem_cons_self
    simp only [finalizeRows, hc]
    exact ih (fun r hr => h r (List.mem_cons_of_mem _ hr)) _

theorem finalizeRows_assigned [Field R] (data : Nat → Row R n) (a : Nat → Option (Fin k))
    (eta : Fin k → R) (l : List Nat) : ∀ s s' : Clusters R k n,
    finalizeRows data a eta l s = .ok s' → ∀ r ∈ l, ∃ c, a r = some c := by
  induction l with
  | nil => intro s s' _ r hr; simp at hr
  | cons r rs ih =>
    intro s s' h r' hr'
    simp only [finalizeRows] at h
    cases hc : a r with
    | none => rw [hc] at h; simp at h
    | some c =>
      rw [hc] at h
      rcases List.mem_cons.1 hr' with hr' | hr'
      · rw [hr']; exact ⟨c, hc⟩
      · exact ih _ _ h r' hr'

/-- Moving towards points of a convex set keeps every centroid in the set. -/
theorem finalizeRows_convex [Field R] [LinearOrder R] [IsStrictOrderedRing R] (data : Nat → Row R n)
    (a : Nat → Option (Fin k)) (eta : Fin k → R) (c : Fin k) (S : Set (Row R n)) (hS : Convex R S)
    (l : List Nat) (hr : ∀ r ∈ l, a r = some c → data r ∈ S)
    (he : ∀ r ∈ l, a r = some c → 0 ≤ eta c ∧ eta c ≤ 1) : ∀ s s' : Clusters R k n,
    s.means c ∈ S → finalizeRows data a eta l s = .ok s' → s'.means c ∈ S := by
  induction l with
  | nil => intro s s' h e; simp only [finalizeRows, Except.ok.injEq] at e; subst e; exact h
  | cons r rs ih =>
    intro s s' h e
    simp only [finalizeRows] at e
    cases hc : a r with
    | none => rw [hc] at e; simp at e
    | some c' =>
      rw [hc] at e
      refine ih (fun r' h' => hr r' (List.mem_cons_of_mem _ h'))
        (fun r' h' => he r' (List.mem_cons_of_mem _ h')) _ _ ?_ e
      by_cases hcc : c' = c
      · subst hcc
        have h1 := hr r List.mem_cons_self hc
        obtain ⟨h2, h3⟩ := he r List.mem_cons_self hc
        have := hS h h1 (sub_nonneg.2 h3) h2 (by ring)
        show Function.update s.means c' _ c' ∈ S
        rw [Function.update_self]
        have e2 : (fun j => (1 - eta c') * s.means c' j + eta c' * data r j) =
            (1 - eta c') • s.means c' + eta c' • data r := by
          funext j; simp [smul_eq_mul]
        rw [e2]; exact this
      · show Function.update s.means c' _ c ∈ S
        rw [Function.update_of_ne (Ne.symm hcc)]
        exact h

/-! ### One iteration -/

/-- The workers' rows, one worker after the other, are all rows in order. -/
theorem flatMap_taskRows {N nt : Nat} (hn : 0 < N) (hnt : 0 < nt) (hlt : N + 8192 < 4294967296) :
    (List.range (effThreads nt N)).flatMap (taskRows N nt) = List.range N := by
  have h := (blocks_partition hn hnt (by omega : N < 4294967296)).2
  unfold blocks Spec.rowsOf at h
  rw [List.flatMap_map] at h
  rw [List.range_eq_range' (n := N), ← h]
  apply List.flatMap_congr
  intro t ht
  rw [taskRows_eq hnt hn hlt]
  unfold Kmeans.threadRows
  rw [if_pos (List.mem_range.1 ht)]


/-- Effect of the sampled E-step on a slot. -/
def mbSlot [LT D] [DecidableLT D] [LinearOrder R] (dist : Row R n → Row R n → D)
    (data : Nat → Row R n) (cents : Fin k → Row R n) (draw : Nat → R) (frac : R)
    (r : Nat) (s : Slot D k) : Slot D k :=
  if draw r > frac then s
  else
    let p := (List.finRange k).foldl (initStep fun c => dist (data r) (cents c)) (s.ub, s.assign)
    { s with assign := p.2, ub := p.1 }

theorem foldl_select (draw : Nat → R) (frac : R) [LinearOrder R] (l : List Nat) : ∀ acc : List Nat,
    l.foldl (fun a r => if draw r > frac then a else a ++ [r]) acc =
      acc ++ l.filter fun r => decide (draw r ≤ frac) := by
  induction l with
  | nil => simp
  | cons r l ih =>
    intro acc
    rw [List.foldl_cons, ih, List.filter_cons]
    by_cases h : draw r > frac
    · simp [h, not_le.2 h]
    · simp [h, not_lt.1 h]

theorem mb_phase [LinearOrder R] [LinearOrder D] {dist : Row R n → Row R n → D}
    {data : Nat → Row R n} {cents : Fin k → Row R n} {draw : Nat → R} {frac : R} {N nt : Nat}
    {slots : Nat → Slot D k} {sched : List Nat} (hn : 0 < N) (hnt : 0 < nt)
    (hlt : N + 8192 < 4294967296) (hc : Complete (effThreads nt N) (taskRows N nt) sched) :
    ∃ p, Par.run (mbRow dist data cents draw frac)
        { mem := slots, acc := fun _ => [], todo := taskRows N nt } sched = .ok p ∧
      (∀ r, r < N → p.mem r = mbSlot dist data cents draw frac r (slots r)) ∧
      (∀ r, N ≤ r → p.mem r = slots r) ∧
      (List.range (effThreads nt N)).flatMap p.acc = (List.range N).filter fun r => decide (draw r ≤ frac) := by
  have hsp := split_taskRows hn hnt hlt
  obtain ⟨p, h1, h2, h3, h4⟩ := Par.run_det (f := mbRow dist data cents draw frac)
    (g := fun r s => .ok (mbSlot dist data cents draw frac r s))
    (h := fun r _ _ a => if draw r > frac then a else a ++ [r])
    (by
      intro r m a
      unfold mbRow mbSlot
      by_cases h : draw r > frac
      · simp [h]
      · simp [h])
    (s0 := { mem := slots, acc := fun _ => [], todo := taskRows N nt }) hsp hc
    (fun r _ => ⟨_, rfl⟩)
  refine ⟨p, h1, ?_, h3, ?_⟩
  · intro r hr
    have := h2 r hr
    simp only [Except.ok.injEq] at this
    exact this.symm
  · have hacc : p.acc = fun t => (taskRows N nt t).filter fun r => decide (draw r ≤ frac) := by
      funext t
      rw [h4 t, foldl_select]; rfl
    rw [hacc, ← List.filter_flatMap, flatMap_taskRows hn hnt hlt]

theorem mem_sampled [LinearOrder R] {N : Nat} {draw : Nat → R} {frac : R} (r : Nat) :
    r ∈ ((List.range N).filter fun r => decide (draw r ≤ frac)) ↔ r < N ∧ draw r ≤ frac := by
  rw [List.mem_filter, List.mem_range, decide_eq_true_eq]

/-- An iteration in closed form. -/
theorem iteration_closed [Field R] [LinearOrder R] [IsStrictOrderedRing R] [LinearOrder D]
    {dist : Row R n → Row R n → D} {big : D}
    {data : Nat → Row R n} {N nt : Nat} {draw : Nat → R} {frac : R} {sched : List Nat}
    {s s' : PState R D k n} (hn : 0 < N) (hnt : 0 < nt) (hlt : N + 8192 < 4294967296)
    (hc : Complete (effThreads nt N) (taskRows N nt) sched)
    (h : iteration dist big data N nt draw frac sched s = .ok s') :
    (∀ r, r < N → (s'.slots r).assign =
        (mbSlot dist data s.cltrs.means draw frac r (s.slots r)).assign ∧ (s'.slots r).ub = big) ∧
    s'.prevMeans = s.cltrs.means ∧
    (∀ r, r < N → draw r ≤ frac → ∃ c, (s'.slots r).assign = some c) ∧
    finalizeRows data (fun r => (s'.slots r).assign) (rates N (fun r => (s'.slots r).assign))
      ((List.range N).filter fun r => decide (draw r ≤ frac)) s.cltrs = .ok s'.cltrs := by
  obtain ⟨p, h1, h2, h3, h4⟩ := mb_phase (dist := dist) (data := data) (cents := s.cltrs.means)
    (draw := draw) (frac := frac) (slots := s.slots) hn hnt hlt hc
  unfold iteration at h
  rw [h1] at h
  simp only [iterationEnd, finalizeThreads_eq, h4] at h
  have has : ∀ r, (if r < N then { p.mem r with ub := big } else p.mem r).assign =
      (p.mem r).assign := by intro r; split <;> rfl
  cases hf : finalizeRows data (fun r => (p.mem r).assign) (rates N fun r => (p.mem r).assign)
      ((List.range N).filter fun r => decide (draw r ≤ frac)) s.cltrs with
  | error e => rw [hf] at h; simp at h
  | ok cl =>
    rw [hf] at h
    simp only [Except.ok.injEq] at h
    subst h
    simp only [has]
    refine ⟨?_, trivial, ?_, hf⟩
    · intro r hr
      refine ⟨by rw [h2 r hr], ?_⟩
      rw [if_pos hr]
    · intro r hr hd
      exact finalizeRows_assigned _ _ _ _ _ _ hf r ((mem_sampled r).2 ⟨hr, hd⟩)

/-- An iteration in closed form. -/
theorem iteration_spec [Field R] [LinearOrder R] [IsStrictOrderedRing R] [LinearOrder D]
    {dist : Row R n → Row R n → D} {big : D}
    {data : Nat → Row R n} {N nt : Nat} {draw : Nat → R} {frac : R} {sched : List Nat}
    {s s' : PState R D k n} (hn : 0 < N) (hnt : 0 < nt) (hlt : N + 8192 < 4294967296)
    (hc : Complete (effThreads nt N) (taskRows N nt) sched)
    (h : iteration dist big data N nt draw frac sched s = .ok s') :
    (∀ r, r < N → (s'.slots r).assign =
        (mbSlot dist data s.cltrs.means draw frac r (s.slots r)).assign ∧ (s'.slots r).ub = big) ∧
    s'.prevMeans = s.cltrs.means ∧
    (∀ r, r < N → draw r ≤ frac → ∃ c, (s'.slots r).assign = some c) ∧
    ∃ l, (∀ r, r ∈ l ↔ r < N ∧ draw r ≤ frac) ∧
      finalizeRows data (fun r => (s'.slots r).assign)
        (rates N (fun r => (s'.slots r).assign)) l s.cltrs = .ok s'.cltrs :=
  ⟨(iteration_closed hn hnt hlt hc h).1, (iteration_closed hn hnt hlt hc h).2.1, (iteration_closed hn hnt hlt hc h).2.2.1, _, mem_sampled,
    (iteration_closed hn hnt hlt hc h).2.2.2⟩


theorem iteration_ok [Field R] [LinearOrder R] [LinearOrder D]
    {dist : Row R n → Row R n → D} {big : D}
    {data : Nat → Row R n} {N nt : Nat} {draw : Nat → R} {frac : R} {sched : List Nat}
    {s : PState R D k n} (hn : 0 < N) (hnt : 0 < nt) (hlt : N + 8192 < 4294967296)
    (hc : Complete (effThreads nt N) (taskRows N nt) sched)
    (hb : ∀ r, r < N → (∃ c, dist (data r) (s.cltrs.means c) < (s.slots r).ub) ∨
      ∃ c, (s.slots r).assign = some c) :
    ∃ s', iteration dist big data N nt draw frac sched s = .ok s' := by
  obtain ⟨p, h1, h2, h3, h4⟩ := mb_phase (dist := dist) (data := data) (cents := s.cltrs.means)
    (draw := draw) (frac := frac) (slots := s.slots) hn hnt hlt hc
  unfold iteration
  rw [h1]
  simp only [iterationEnd, finalizeThreads_eq, h4]
  obtain ⟨cl, hf⟩ := finalizeRows_ok data (fun r => (p.mem r).assign)
    (rates N fun r => (p.mem r).assign) ((List.range N).filter fun r => decide (draw r ≤ frac)) (by
      intro r hr
      obtain ⟨hr, hd⟩ := (mem_sampled r).1 hr
      show ∃ c, (p.mem r).assign = some c
      rw [h2 r hr]
      unfold mbSlot
      rw [if_neg (not_lt.2 hd)]
      simp only
      rcases init_inv (fun c => dist (data r) (s.cltrs.means c)) (s.slots r).ub (s.slots r).assign
        (List.finRange k) with ⟨e1, e2⟩ | ⟨c, _, e1, _⟩
      · rw [e1]
        rcases hb r hr with ⟨c, hlt⟩ | h
        · exact absurd hlt (not_lt.2 (e2 c (List.mem_finRange c)))
        · exact h
      · rw [e1]; exact ⟨c, rfl⟩) s.cltrs
  rw [hf]
  exact ⟨_, rfl⟩

/-- The rate used for a cluster with at least one row lies in `(0, 1]`. -/
theorem rates_range [Field R] [LinearOrder R] [IsStrictOrderedRing R] {N : Nat}
    {a : Nat → Option (Fin k)} {r : Nat} {c : Fin k} (hr : r < N) (hc : a r = some c) :
    0 < (rates N a c : R) ∧ (rates N a c : R) ≤ 1 := by
  unfold rates
  rw [tally_eq]
  have h1 : 1 ≤ Spec.count N a c := by
    unfold Spec.count
    exact Finset.card_pos.2 ⟨r, Finset.mem_filter.2 ⟨Finset.mem_range.2 hr, hc⟩⟩
  have h2 : (1 : R) ≤ (Spec.count N a c : R) := by exact_mod_cast h1
  have h3 : (0 : R) < (Spec.count N a c : R) := lt_of_lt_of_le one_pos h2
  exact ⟨by positivity, by rw [div_le_one h3]; exact h2⟩

theorem finish_spec [Field R] [Field D] [LinearOrder D] {dist : Row R n → Row R n → D} {big : D}
    {data : Nat → Row R n} {N nt : Nat} {sched : List Nat} {s : PState R D k n}
    (hn : 0 < N) (hnt : 0 < nt) (hlt : N + 8192 < 4294967296)
    (hc : Complete (effThreads nt N) (taskRows N nt) sched)
    (hb : ∀ r, r < N → (∃ c, dist (data r) (s.cltrs.means c) < (s.slots r).ub) ∨
      ∃ c, (s.slots r).assign = some c ∧ (s.slots r).ub = dist (data r) (s.cltrs.means c)) :
    ∃ s', finish dist big data N nt sched s = .ok s' ∧ s'.cltrs = s.cltrs ∧
      (∀ c, s'.counts c = (Spec.count N (fun r => (s'.slots r).assign) c : Int)) ∧
      ∀ r, r < N → ∃ c, (s'.slots r).assign = some c ∧
        IsNearest (fun c => dist (data r) (s.cltrs.means c)) c := by
  have hrow := fun r (hr : r < N) => slotStep_init dist big data s.view r (s.slots r) (hb r hr)
  obtain ⟨p, h1, h2, _, _⟩ := Par.run_det (f := emRow dist big data s.view true)
    (g := slotStep dist big data s.view true) (h := accStep data true)
    (fun r m a => by
      rw [emRow_eq]; cases slotStep dist big data s.view true r m <;> rfl)
    (s0 := { mem := s.slots, acc := fun _ => Kmeans.Acc.init, todo := taskRows N nt })
    (split_taskRows hn hnt hlt) hc (fun r hr => by
      obtain ⟨s', c, h, _⟩ := hrow r hr
      exact ⟨s', h⟩)
  have hnear : ∀ r, r < N → ∃ c, (p.mem r).assign = some c ∧
      IsNearest (fun c => dist (data r) (s.cltrs.means c)) c := by
    intro r hr
    obtain ⟨s', c, h, ha, _, hne⟩ := hrow r hr
    have := h2 r hr
    rw [h] at this
    simp only [Except.ok.injEq] at this
    rw [← this]
    exact ⟨c, ha, hne⟩
  unfold finish
  rw [h1]
  simp only
  rw [if_pos (by
    rw [List.all_eq_true]
    intro r hr
    obtain ⟨c, hc, _⟩ := hnear r (List.mem_range.1 hr)
    rw [hc]; rfl)]
  refine ⟨_, rfl, rfl, ?_, hnear⟩
  intro c
  simp only [tally_eq]

/-- The final assignment of a row that carries the bound `big` is the lowest-numbered nearest centroid. -/
theorem finish_assign [Field R] [Field D] [LinearOrder D] {dist : Row R n → Row R n → D} {big : D}
    {data : Nat → Row R n} {N nt : Nat} {sched : List Nat} {s s' : PState R D k n}
    (hn : 0 < N) (hnt : 0 < nt) (hlt : N + 8192 < 4294967296)
    (hc : Complete (effThreads nt N) (taskRows N nt) sched)
    (hb : ∀ r, r < N → (∃ c, dist (data r) (s.cltrs.means c) < (s.slots r).ub) ∨
      ∃ c, (s.slots r).assign = some c ∧ (s.slots r).ub = dist (data r) (s.cltrs.means c))
    (e : finish dist big data N nt sched s = .ok s') (r : Nat) (hr : r < N) :
    (s'.slots r).assign = ((List.finRange k).foldl (initStep fun c => dist (data r) (s.cltrs.means c))
      ((s.slots r).ub, (s.slots r).assign)).2 := by
  have hrow := fun r (hr : r < N) => slotStep_init dist big data s.view r (s.slots r) (hb r hr)
  obtain ⟨p, h1, h2, _, _⟩ := Par.run_det (f := emRow dist big data s.view true)
    (g := slotStep dist big data s.view true) (h := accStep data true)
    (fun r m a => by
      rw [emRow_eq]; cases slotStep dist big data s.view true r m <;> rfl)
    (s0 := { mem := s.slots, acc := fun _ => Kmeans.Acc.init, todo := taskRows N nt })
    (split_taskRows hn hnt hlt) hc (fun r hr => by
      obtain ⟨s', c, h, _⟩ := hrow r hr
      exact ⟨s', h⟩)
  unfold finish at e
  rw [h1] at e
  simp only at e
  split at e
  · cases e
    have := h2 r hr
    unfold slotStep at this
    simp only [if_true] at this
    split at this
    · cases this
    · rename_i c hc'
      exact (congrArg Slot.assign (Except.ok.inj this)).symm.trans hc'.symm
  · cases e

/-! ### The loop -/

/-- Rows are ready for an E-step from scratch. -/
def Fresh (big : D) (N : Nat) (s : PState R D k n) : Prop := ∀ r, r < N → (s.slots r).ub = big

theorem loop_inv [Field R] [LinearOrder R] [IsStrictOrderedRing R] [LinearOrder D]
    {dist : Row R n → Row R n → D} {big : D} {norm : (Fin k → Row R n) → R}
    {data : Nat → Row R n} {N nt : Nat} {draw : Nat → Nat → R} {frac tol : R}
    {sched : Nat → List Nat} (hn : 0 < N) (hnt : 0 < nt) (hlt : N + 8192 < 4294967296)
    (hc : ∀ i, Complete (effThreads nt N) (taskRows N nt) (sched i))
    (P : PState R D k n → Prop)
    (hP : ∀ i s s', P s → iteration dist big data N nt (draw i) frac (sched i) s = .ok s' → P s') :
    ∀ fuel iter (s : PState R D k n) (res : Nat × PState R D k n), P s →
      loop dist big norm data N nt draw frac tol sched fuel iter s = .ok res →
      P res.2 ∧ (0 < fuel → Fresh big N res.2) ∧ iter ≤ res.1 ∧ res.1 ≤ iter + fuel := by
  intro fuel
  induction fuel with
  | zero =>
    intro iter s res hs h
    simp only [loop, Except.ok.injEq] at h
    subst h
    exact ⟨hs, fun h => absurd h (lt_irrefl _), le_refl _, le_refl _⟩
  | succ fuel ih =>
    intro iter s res hs h
    unfold loop at h
    cases hi : iteration dist big data N nt (draw iter) frac (sched iter) s with
    | error e => rw [hi] at h; simp at h
    | ok s1 =>
      rw [hi] at h
      simp only at h
      have hf : Fresh big N s1 := fun r hr =>
        ((iteration_spec hn hnt hlt (hc iter) hi).1 r hr).2
      have hp := hP iter s s1 hs hi
      split at h
      · simp only [Except.ok.injEq] at h
        subst h
        exact ⟨hp, fun _ => hf, le_refl _, by simp⟩
      · obtain ⟨a, b, c, d⟩ := ih (iter + 1) s1 res hp h
        refine ⟨a, fun _ => ?_, by omega, by omega⟩
        by_cases h0 : 0 < fuel
        · exact b h0
        · have : fuel = 0 := by omega
          subst this
          simp only [loop, Except.ok.injEq] at h
          subst h
          exact hf

/-- Every centroid stays in the convex hull of its first position and the rows. -/
theorem iteration_hull [Field R] [LinearOrder R] [IsStrictOrderedRing R] [LinearOrder D]
    {dist : Row R n → Row R n → D} {big : D} {data : Nat → Row R n} {N nt : Nat} {draw : Nat → R} {frac : R}
    {sched : List Nat} {s s' : PState R D k n} (hn : 0 < N) (hnt : 0 < nt) (hlt : N + 8192 < 4294967296)
    (hc : Complete (effThreads nt N) (taskRows N nt) sched)
    (h : iteration dist big data N nt draw frac sched s = .ok s') (m : Row R n) (c : Fin k)
    (hm : s.cltrs.means c ∈ convexHull R ({m} ∪ {x | ∃ r, r < N ∧ x = data r})) :
    s'.cltrs.means c ∈ convexHull R ({m} ∪ {x | ∃ r, r < N ∧ x = data r}) := by
  obtain ⟨_, _, _, l, hl, hf⟩ := iteration_spec hn hnt hlt hc h
  refine finalizeRows_convex data _ _ c _ (convex_convexHull R _) l ?_ ?_ _ _ hm hf
  · intro r hr _
    exact subset_convexHull R _ (Or.inr ⟨r, ((hl r).1 hr).1, rfl⟩)
  · intro r hr ha
    have := rates_range (R := R) (a := fun r => (s'.slots r).assign) ((hl r).1 hr).1 ha
    exact ⟨this.1.le, this.2⟩

theorem loop_ok [Field R] [LinearOrder R] [IsStrictOrderedRing R] [LinearOrder D]
    {dist : Row R n → Row R n → D} {big : D} {norm : (Fin k → Row R n) → R}
    {data : Nat → Row R n} {N nt : Nat} {draw : Nat → Nat → R} {frac tol : R}
    {sched : Nat → List Nat} (hn : 0 < N) (hnt : 0 < nt) (hlt : N + 8192 < 4294967296)
    (hc : ∀ i, Complete (effThreads nt N) (taskRows N nt) (sched i)) (hk : 0 < k) (m : Fin k → Row R n)
    (hbig : ∀ r, r < N → ∀ c, ∀ y ∈ convexHull R ({m c} ∪ {x | ∃ r, r < N ∧ x = data r}), dist (data r) y < big) :
    ∀ fuel iter (s : PState R D k n),
      (∀ c, s.cltrs.means c ∈ convexHull R ({m c} ∪ {x | ∃ r, r < N ∧ x = data r})) →
      (∀ r, r < N → (s.slots r).ub = big ∨ ∃ c, (s.slots r).assign = some c) →
      ∃ res, loop dist big norm data N nt draw frac tol sched fuel iter s = .ok res := by
  intro fuel
  induction fuel with
  | zero => intro iter s _ _; exact ⟨_, rfl⟩
  | succ fuel ih =>
    intro iter s hm hs
    obtain ⟨s1, hi⟩ := iteration_ok (dist := dist) (big := big) (data := data) (draw := draw iter)
      (frac := frac) (s := s) hn hnt hlt (hc iter) (by
        intro r hr
        rcases hs r hr with h | h
        · left; exact ⟨⟨0, hk⟩, by rw [h]; exact hbig r hr _ _ (hm _)⟩
        · right; exact h)
    unfold loop
    rw [hi]
    simp only
    split
    · exact ⟨_, rfl⟩
    · exact ih _ _ (fun c => iteration_hull hn hnt hlt (hc iter) hi (m c) c (hm c))
        fun r hr => Or.inl ((iteration_spec hn hnt hlt (hc iter) hi).1 r hr).2

end Knor.MiniBatch
