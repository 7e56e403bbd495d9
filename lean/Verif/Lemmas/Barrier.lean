import Mathlib.Algebra.BigOperators.Group.Finset.Basic
import Mathlib.Algebra.Order.BigOperators.Group.Finset
import Mathlib.Algebra.BigOperators.Intervals
import Mathlib.Tactic.Ring
import Verif.Model.Barrier
import Verif.Spec.Barrier

namespace Knor.Barrier

open Knor

theorem hist_succ (units : Nat → Nat → Nat) (i m : Nat) :
    hist units i (m + 1) = hist units i m ++ parts units i (m + 1) := by
  unfold hist
  rw [List.range_succ, List.flatMap_append]
  simp

/-- A worker that is not working; it has done everything up to phase `m`. -/
def Rest (units : Nat → Nat → Nat) (i m : Nat) (x : Worker) : Prop :=
  x.log = hist units i m ∧ x.dead = false ∧
  ((x.st = .wait ∧ (x.pc = .top ∨ x.pc = .waitLock ∨ x.pc = .waitChk ∨ x.pc = .asleep ∨
      x.pc = .sleepTest ∨ x.pc = .sleepSignal ∨ x.pc = .sleepUnlock)) ∨
    (x.pc = .sleepSet ∧ x.st = .job m))

/-- A worker that still has to finish phase `m`. -/
def Work (units : Nat → Nat → Nat) (i m : Nat) (x : Worker) : Prop :=
  x.st = .job m ∧ 0 < m ∧ x.rem ≤ units m i ∧ x.dead = false ∧
  x.log = hist units i (m - 1) ++ (List.range (units m i - x.rem)).map (fun u => (m, u)) ∧
  ((0 < x.rem ∧ (x.pc = .top ∨ x.pc = .waitLock ∨ x.pc = .waitChk ∨ x.pc = .asleep ∨
      x.pc = .runChk)) ∨
    (x.rem < units m i ∧ (x.pc = .reqLock ∨ x.pc = .reqChk)))

/-- A worker that has been told to exit after phase `m`. -/
def Exiting (units : Nat → Nat → Nat) (i m : Nat) (x : Worker) : Prop :=
  x.st = .exit ∧ x.log = hist units i m ∧
  (x.pc = .top ∨ x.pc = .waitLock ∨ x.pc = .waitChk ∨ x.pc = .asleep ∨ x.pc = .runChk ∨
    x.pc = .exited)

/-- The worker will still decrement the counter. -/
def owes (x : Worker) : Bool :=
  match x.st, x.pc with
  | .job _, .sleepSet => false
  | .job _, _ => true
  | _, _ => false

theorem owes_work {units : Nat → Nat → Nat} {i m : Nat} {x : Worker} (h : Work units i m x) :
    owes x = true := by
  obtain ⟨h1, _, _, _, _, h5⟩ := h
  unfold owes
  rw [h1]
  rcases h5 with ⟨_, h⟩ | ⟨_, h⟩
  · rcases h with h | h | h | h | h <;> rw [h]
  · rcases h with h | h <;> rw [h]

theorem owes_rest {units : Nat → Nat → Nat} {i m : Nat} {x : Worker} (h : Rest units i m x) :
    owes x = false := by
  obtain ⟨_, _, h⟩ := h
  unfold owes
  rcases h with ⟨h, _⟩ | ⟨h1, h2⟩
  · rw [h]
  · rw [h2, h1]

/-- The worker's program counter lies in a critical section. -/
def holds : WPc → Bool
  | .waitChk | .reqChk | .sleepSet | .sleepTest | .sleepSignal | .sleepUnlock => true
  | _ => false

/-- Condition on worker `i`, given where the coordinator is. -/
def WOk (units : Nat → Nat → Nat) (c : CPc) (m i : Nat) (x : Worker) : Prop :=
  match c with
  | .idle | .closing => Rest units i m x
  | .wakeLock (.job p) j | .wakeSet (.job p) j =>
    p = m ∧ 0 < m ∧ if i < j then Rest units i m x ∨ Work units i m x else Rest units i (m - 1) x
  | .wakeUnlock (.job p) j | .wakeSignal (.job p) j =>
    p = m ∧ 0 < m ∧ if i < j + 1 then Rest units i m x ∨ Work units i m x else Rest units i (m - 1) x
  | .wakeLock .exit j | .wakeSet .exit j =>
    if i < j then Exiting units i m x ∧ x.dead = false else Rest units i m x
  | .wakeUnlock .exit j | .wakeSignal .exit j =>
    if i < j + 1 then Exiting units i m x ∧ x.dead = false else Rest units i m x
  | .wakeLock .wait _ | .wakeSet .wait _ | .wakeUnlock .wait _ | .wakeSignal .wait _ => False
  | .waitCheck | .waitEnter | .blocked => Rest units i m x ∨ Work units i m x
  | .destroyW j => Exiting units i m x ∧ (i < j → x.pc = .exited)
  | .joinW j => Exiting units i m x ∧ (i < j → x.pc = .exited)
  | .finished => Exiting units i m x ∧ x.pc = .exited

/-- The coordinator is telling worker `i` something and holds its mutex. -/
def coordHolds (c : CPc) (i : Nat) : Prop :=
  match c with
  | .wakeSet _ j | .wakeUnlock _ j => i = j
  | _ => False

/-- The coordinator has changed worker `i`'s state and has not signalled it yet. -/
def coordWaking (c : CPc) (i : Nat) : Prop :=
  match c with
  | .wakeUnlock _ j | .wakeSignal _ j => i = j
  | _ => False

/-- Number of workers the coordinator has not woken yet. -/
def notWoken (n : Nat) : CPc → Nat
  | .wakeLock (.job _) j | .wakeSet (.job _) j => n - j
  | .wakeUnlock (.job _) j | .wakeSignal (.job _) j => n - (j + 1)
  | _ => 0

/-- Index of the worker the coordinator deals with. -/
def index : CPc → Nat
  | .wakeLock _ j | .wakeSet _ j | .wakeUnlock _ j | .wakeSignal _ j | .destroyW j | .joinW j => j
  | _ => 0

/-- The invariant of the protocol. -/
structure Inv (units : Nat → Nat → Nat) (n : Nat) (s : St) : Prop where
  ok : ∀ i, i < n → WOk units s.coord s.phase i (s.w i)
  lockW : ∀ i, i < n → ((s.w i).lock = some .worker ↔ holds (s.w i).pc = true)
  lockC : ∀ i, i < n → ((s.w i).lock = some .coord ↔ coordHolds s.coord i)
  sleepers : ∀ i, i < n → (s.w i).pc = .asleep → (s.w i).st ≠ .wait → coordWaking s.coord i
  pend : shutting s.coord = false →
    s.pending = (∑ i ∈ Finset.range n, if owes (s.w i) then 1 else 0) + notWoken n s.coord
  idx : index s.coord < n

theorem init_inv {units : Nat → Nat → Nat} {n : Nat} (hn : 0 < n) : Inv units n init := by
  refine ⟨?_, ?_, ?_, ?_, ?_, hn⟩
  · intro i _
    exact ⟨rfl, rfl, Or.inl ⟨rfl, Or.inl rfl⟩⟩
  · intro i _; simp [init, holds]
  · intro i _; simp [init, coordHolds]
  · intro i _ h; simp [init] at h
  · intro _; simp [init, owes, notWoken]

/-! ### Steps of a worker -/

/-- What a worker step does to worker `i` itself: kind preserved or finished. -/
theorem rest_step {units : Nat → Nat → Nat} {i m : Nat} {s s' : St}
    (h : Rest units i m (s.w i)) (e : workerStep units i s = some s') :
    Rest units i m (s'.w i) := by
  obtain ⟨h1, h2, h3⟩ := h
  rcases h3 with ⟨hst, hpc⟩ | ⟨hpc, hst⟩
  · rcases hpc with hpc | hpc | hpc | hpc | hpc | hpc | hpc
    all_goals (unfold workerStep at e; simp only [hpc] at e)
    · simp only [hst, if_true, Option.some.injEq] at e
      subst e
      simp [St.setW, Rest, h1, h2]
    · split at e
      · simp only [Option.some.injEq] at e
        subst e
        simp [St.useW, St.setW, Rest, h1, h2, hst]
      · simp at e
    · simp only [hst, if_true, Option.some.injEq] at e
      subst e
      simp [St.useW, St.setW, Rest, h1, h2]
    · simp at e
    · simp only [Option.some.injEq] at e
      subst e
      simp only [St.setW, Rest, Function.update_self, h1, h2, hst, true_and]
      split <;> simp
    · have : (s'.w i) = { s.w i with pc := .sleepUnlock } := by
        split at e <;> (simp only [Option.some.injEq] at e; subst e; simp [St.setW])
      rw [this]
      simp [Rest, h1, h2, hst]
    · simp only [Option.some.injEq] at e
      subst e
      simp [St.useW, St.setW, Rest, h1, h2, hst]
  · unfold workerStep at e
    simp only [hpc, Option.some.injEq] at e
    subst e
    simp [St.setW, Rest, h1, h2]

theorem work_step {units : Nat → Nat → Nat} {i m : Nat} {s s' : St}
    (h : Work units i m (s.w i)) (e : workerStep units i s = some s') :
    (Work units i m (s'.w i) ∧ s'.pending = s.pending) ∨
      (Rest units i m (s'.w i) ∧ s'.pending = decr s.pending) := by
  obtain ⟨hst, hm, hr, hdead, hlog, h⟩ := h
  have hne : (s.w i).st ≠ .wait := by rw [hst]; simp
  rcases h with ⟨h0, hpc⟩ | ⟨h0, hpc⟩
  · rcases hpc with hpc | hpc | hpc | hpc | hpc
    all_goals (unfold workerStep at e; simp only [hpc] at e)
    · simp only [hst, Option.some.injEq] at e
      subst e
      left
      simp [St.setW, Work, hm, hr, hdead, hlog, h0]
    · split at e
      · simp only [Option.some.injEq] at e
        subst e
        left
        simp [St.useW, St.setW, Work, hst, hm, hr, hdead, hlog, h0]
      · simp at e
    · simp only [hst, Option.some.injEq] at e
      subst e
      left
      simp [St.useW, St.setW, Work, hm, hr, hdead, hlog, h0]
    · simp at e
    · simp only [hst, Option.some.injEq] at e
      subst e
      left
      refine ⟨⟨?_, hm, ?_, ?_, ?_, ?_⟩, rfl⟩
      · simp [St.setW]
      · simp [St.setW]; omega
      · simp [St.setW, hdead]
      · simp only [St.setW, Function.update_self, hlog]
        rw [List.append_assoc, show units m i - ((s.w i).rem - 1) = (units m i - (s.w i).rem) + 1 by
          omega, List.range_succ, List.map_append]
        rfl
      · right
        simp [St.setW]; omega
  · rcases hpc with hpc | hpc
    all_goals (unfold workerStep at e; simp only [hpc] at e)
    · split at e
      · simp only [Option.some.injEq] at e
        subst e
        left
        simp [St.useW, St.setW, Work, hst, hm, hr, hdead, hlog, h0]
      · simp at e
    · split at e
      · rename_i hrem
        simp only [Option.some.injEq] at e
        subst e
        left
        simp [St.useW, St.setW, Work, hst, hm, hr, hdead, hlog, hrem]
      · rename_i hrem
        simp only [Option.some.injEq] at e
        subst e
        right
        refine ⟨⟨?_, ?_, ?_⟩, rfl⟩
        · simp only [St.setW, Function.update_self, hlog]
          obtain ⟨m', rfl⟩ : ∃ m', m = m' + 1 := ⟨m - 1, by omega⟩
          rw [hist_succ, show (s.w i).rem = 0 by omega]
          rfl
        · simp [St.setW, hdead]
        · right; simp [St.setW, hst]

theorem exiting_step {units : Nat → Nat → Nat} {i m : Nat} {s s' : St}
    (h : Exiting units i m (s.w i)) (e : workerStep units i s = some s') :
    Exiting units i m (s'.w i) ∧ (s'.w i).dead = (s.w i).dead ∧ (s.w i).pc ≠ .exited ∧
      s'.coord = s.coord := by
  obtain ⟨hst, hlog, hpc⟩ := h
  rcases hpc with hpc | hpc | hpc | hpc | hpc | hpc
  all_goals (unfold workerStep at e; simp only [hpc] at e)
  · simp only [hst, Option.some.injEq] at e
    subst e
    simp [St.setW, Exiting, hlog, hpc]
  · split at e
    · simp only [Option.some.injEq] at e
      subst e
      simp [St.useW, St.setW, Exiting, hst, hlog, hpc]
    · simp at e
  · simp only [hst, Option.some.injEq] at e
    subst e
    simp [St.useW, St.setW, Exiting, hlog, hpc]
  · simp at e
  · simp only [hst, Option.some.injEq] at e
    subst e
    simp [St.setW, Exiting, hlog, hpc]
  · simp at e

/-- A worker's step leaves the other workers alone and changes the coordinator's position only by
waking it up. -/
theorem workerStep_frame {units : Nat → Nat → Nat} {i : Nat} {s s' : St}
    (e : workerStep units i s = some s') :
    (∀ j, j ≠ i → s'.w j = s.w j) ∧ s'.phase = s.phase ∧
      (s'.coord = s.coord ∨ (s.coord = .blocked ∧ s'.coord = .waitCheck)) := by
  unfold workerStep at e
  simp only at e
  split at e <;> (try (split at e)) <;> (try (simp at e)) <;> (try subst e)
  all_goals
    (refine ⟨fun j hj => ?_, ?_, ?_⟩ <;> simp [St.setW, St.useW, Function.update_of_ne, *])

/-- … and its mutex. -/
theorem workerStep_lock {units : Nat → Nat → Nat} {i : Nat} {s s' : St}
    (e : workerStep units i s = some s')
    (hW : ((s.w i).lock = some .worker ↔ holds (s.w i).pc = true)) :
    ((s'.w i).lock = some .worker ↔ holds (s'.w i).pc = true) ∧
      ((s'.w i).lock = some .coord ↔ (s.w i).lock = some .coord) ∧
      ((s'.w i).pc = .asleep → (s'.w i).st = .wait) := by
  cases hpc : (s.w i).pc <;> (unfold workerStep at e; simp only [hpc] at e) <;>
    simp only [hpc, holds, Bool.false_eq_true, iff_false, iff_true] at hW
  · obtain rfl := Option.some.inj e
    by_cases h : (s.w i).st = .wait <;> simp [St.setW, holds, h, hW]
  · split at e
    · obtain rfl := Option.some.inj e
      rename_i h
      simp [St.useW, St.setW, holds, h]
    · simp at e
  · obtain rfl := Option.some.inj e
    by_cases h : (s.w i).st = .wait <;> simp [St.useW, St.setW, holds, h, hW]
  · simp at e
  · split at e <;> (obtain rfl := Option.some.inj e; simp [St.setW, holds, hW])
  · split at e
    · obtain rfl := Option.some.inj e
      rename_i h
      simp [St.useW, St.setW, holds, h]
    · simp at e
  · split at e <;> (obtain rfl := Option.some.inj e; simp [St.useW, St.setW, holds, hW])
  · obtain rfl := Option.some.inj e
    simp [St.setW, holds, hW]
  · obtain rfl := Option.some.inj e
    by_cases h : s.pending = 0 <;> simp [St.setW, holds, h, hW]
  · split at e <;> (obtain rfl := Option.some.inj e; simp [St.setW, holds, hW])
  · obtain rfl := Option.some.inj e
    simp [St.useW, St.setW, holds, hW]
  · simp at e
  · simp at e

theorem rest_pending {units : Nat → Nat → Nat} {i m : Nat} {s s' : St}
    (h : Rest units i m (s.w i)) (e : workerStep units i s = some s') :
    s'.pending = s.pending := by
  obtain ⟨_, _, h3⟩ := h
  have hne : (s.w i).pc ≠ .reqChk := by
    rcases h3 with ⟨_, h | h | h | h | h | h | h⟩ | ⟨h, _⟩ <;> rw [h] <;> simp
  unfold workerStep at e
  simp only at e
  split at e <;> (try (split at e)) <;> (try (simp at e; done)) <;>
    (try (obtain rfl := Option.some.inj e)) <;> (try rfl)
  rename_i h _
  exact absurd h hne

theorem wok_step {units : Nat → Nat → Nat} {i m : Nat} {s s' : St}
    (h : WOk units s.coord m i (s.w i)) (e : workerStep units i s = some s') :
    WOk units s'.coord m i (s'.w i) := by
  have hc := (workerStep_frame e).2.2
  have key : WOk units s.coord m i (s'.w i) := by
    revert h
    have rs : ∀ q, Rest units i q (s.w i) → Rest units i q (s'.w i) := fun q h => rest_step h e
    have ws : ∀ q, Rest units i q (s.w i) ∨ Work units i q (s.w i) →
        Rest units i q (s'.w i) ∨ Work units i q (s'.w i) := by
      rintro q (h | h)
      · exact Or.inl (rest_step h e)
      · rcases work_step h e with h | h
        · exact Or.inr h.1
        · exact Or.inl h.1
    have es : Exiting units i m (s.w i) ∧ (s.w i).dead = false →
        Exiting units i m (s'.w i) ∧ (s'.w i).dead = false := by
      rintro ⟨h, h'⟩
      have := exiting_step h e
      exact ⟨this.1, by rw [this.2.1, h']⟩
    have es' : ∀ j, Exiting units i m (s.w i) ∧ (i < j → (s.w i).pc = .exited) →
        Exiting units i m (s'.w i) ∧ (i < j → (s'.w i).pc = .exited) := by
      rintro j ⟨h, h'⟩
      have := exiting_step h e
      exact ⟨this.1, fun hj => absurd (h' hj) this.2.2.1⟩
    cases s.coord with
    | idle => exact rs m
    | closing => exact rs m
    | wakeLock c j =>
      cases c with
      | wait => exact id
      | job p =>
        rintro ⟨h1, h2, h3⟩
        refine ⟨h1, h2, ?_⟩
        split at h3 <;> rename_i hij <;> simp only [hij, if_true, if_false]
        · exact ws _ h3
        · exact rs _ h3
      | exit =>
        intro h3
        simp only [WOk] at h3 ⊢
        split at h3 <;> rename_i hij <;> simp only [hij, if_true, if_false]
        · exact es h3
        · exact rs _ h3
    | wakeSet c j =>
      cases c with
      | wait => exact id
      | job p =>
        rintro ⟨h1, h2, h3⟩
        refine ⟨h1, h2, ?_⟩
        split at h3 <;> rename_i hij <;> simp only [hij, if_true, if_false]
        · exact ws _ h3
        · exact rs _ h3
      | exit =>
        intro h3
        simp only [WOk] at h3 ⊢
        split at h3 <;> rename_i hij <;> simp only [hij, if_true, if_false]
        · exact es h3
        · exact rs _ h3
    | wakeUnlock c j =>
      cases c with
      | wait => exact id
      | job p =>
        rintro ⟨h1, h2, h3⟩
        refine ⟨h1, h2, ?_⟩
        split at h3 <;> rename_i hij <;> simp only [hij, if_true, if_false]
        · exact ws _ h3
        · exact rs _ h3
      | exit =>
        intro h3
        simp only [WOk] at h3 ⊢
        split at h3 <;> rename_i hij <;> simp only [hij, if_true, if_false]
        · exact es h3
        · exact rs _ h3
    | wakeSignal c j =>
      cases c with
      | wait => exact id
      | job p =>
        rintro ⟨h1, h2, h3⟩
        refine ⟨h1, h2, ?_⟩
        split at h3 <;> rename_i hij <;> simp only [hij, if_true, if_false]
        · exact ws _ h3
        · exact rs _ h3
      | exit =>
        intro h3
        simp only [WOk] at h3 ⊢
        split at h3 <;> rename_i hij <;> simp only [hij, if_true, if_false]
        · exact es h3
        · exact rs _ h3
    | waitCheck => exact ws m
    | waitEnter => exact ws m
    | blocked => exact ws m
    | destroyW j => exact es' j
    | joinW j => exact es' j
    | finished =>
      rintro ⟨h, h'⟩
      exact absurd h' (exiting_step h e).2.2.1
  rcases hc with hc | ⟨h1, h2⟩
  · rw [hc]; exact key
  · rw [h1] at key; rw [h2]; exact key

/-- Outside shutdown every worker is resting or working. -/
theorem wok_cases {units : Nat → Nat → Nat} {c : CPc} {m i : Nat} {x : Worker}
    (h : WOk units c m i x) (hs : shutting c = false) :
    ∃ q, Rest units i q x ∨ Work units i q x := by
  revert h hs
  cases c with
  | idle => exact fun h _ => ⟨m, Or.inl h⟩
  | closing => exact fun h _ => ⟨m, Or.inl h⟩
  | wakeLock c j =>
    cases c with
    | wait => exact fun h => h.elim
    | job p =>
      rintro ⟨h1, h2, h3⟩ _
      split at h3
      · exact ⟨_, h3⟩
      · exact ⟨_, Or.inl h3⟩
    | exit => intro _ h; simp [shutting] at h
  | wakeSet c j =>
    cases c with
    | wait => exact fun h => h.elim
    | job p =>
      rintro ⟨h1, h2, h3⟩ _
      split at h3
      · exact ⟨_, h3⟩
      · exact ⟨_, Or.inl h3⟩
    | exit => intro _ h; simp [shutting] at h
  | wakeUnlock c j =>
    cases c with
    | wait => exact fun h => h.elim
    | job p =>
      rintro ⟨h1, h2, h3⟩ _
      split at h3
      · exact ⟨_, h3⟩
      · exact ⟨_, Or.inl h3⟩
    | exit => intro _ h; simp [shutting] at h
  | wakeSignal c j =>
    cases c with
    | wait => exact fun h => h.elim
    | job p =>
      rintro ⟨h1, h2, h3⟩ _
      split at h3
      · exact ⟨_, h3⟩
      · exact ⟨_, Or.inl h3⟩
    | exit => intro _ h; simp [shutting] at h
  | waitCheck => exact fun h _ => ⟨m, h⟩
  | waitEnter => exact fun h _ => ⟨m, h⟩
  | blocked => exact fun h _ => ⟨m, h⟩
  | destroyW j => intro _ h; simp [shutting] at h
  | joinW j => intro _ h; simp [shutting] at h
  | finished => intro _ h; simp [shutting] at h

theorem sum_owes_update {n i : Nat} (hi : i < n) (f g : Nat → Worker)
    (hfg : ∀ j, j ≠ i → g j = f j) :
    (∑ j ∈ Finset.range n, if owes (g j) then 1 else 0) + (if owes (f i) then 1 else 0) =
      (∑ j ∈ Finset.range n, if owes (f j) then 1 else 0) + (if owes (g i) then 1 else 0) := by
  have hmem : i ∈ Finset.range n := Finset.mem_range.2 hi
  rw [← Finset.add_sum_erase _ _ hmem, ← Finset.add_sum_erase (Finset.range n)
    (fun j => if owes (f j) then 1 else 0) hmem]
  have : ∑ j ∈ (Finset.range n).erase i, (if owes (g j) then 1 else 0) =
      ∑ j ∈ (Finset.range n).erase i, (if owes (f j) then 1 else 0) :=
    Finset.sum_congr rfl fun j hj => by rw [hfg j (Finset.ne_of_mem_erase hj)]
  rw [this]
  omega

theorem inv_worker {units : Nat → Nat → Nat} {n i : Nat} {s s' : St} (hi : i < n)
    (h : Inv units n s) (e : workerStep units i s = some s') : Inv units n s' := by
  obtain ⟨hoth, hph, hc⟩ := workerStep_frame e
  obtain ⟨hl1, hl2, hl3⟩ := workerStep_lock e (h.lockW i hi)
  have hsame : coordHolds s'.coord = coordHolds s.coord ∧ coordWaking s'.coord = coordWaking s.coord ∧
      notWoken n s'.coord = notWoken n s.coord ∧ shutting s'.coord = shutting s.coord ∧
      index s'.coord = index s.coord := by
    rcases hc with hc | ⟨h1, h2⟩
    · rw [hc]; simp
    · rw [h1, h2]; exact ⟨rfl, rfl, rfl, rfl, rfl⟩
  obtain ⟨e1, e2, e3, e4, e5⟩ := hsame
  refine ⟨?_, ?_, ?_, ?_, ?_, by rw [e5]; exact h.idx⟩
  · intro j hj
    by_cases hji : j = i
    · subst hji
      rw [hph]
      exact wok_step (h.ok j hj) e
    · rw [hoth j hji, hph]
      have := h.ok j hj
      rcases hc with hc | ⟨h1, h2⟩
      · rw [hc]; exact this
      · rw [h1] at this; rw [h2]; exact this
  · intro j hj
    by_cases hji : j = i
    · subst hji; exact hl1
    · rw [hoth j hji]; exact h.lockW j hj
  · intro j hj
    rw [e1]
    by_cases hji : j = i
    · subst hji; exact hl2.trans (h.lockC j hj)
    · rw [hoth j hji]; exact h.lockC j hj
  · intro j hj
    rw [e2]
    by_cases hji : j = i
    · subst hji
      intro h1 h2
      exact absurd (hl3 h1) h2
    · rw [hoth j hji]; exact h.sleepers j hj
  · rw [e3, e4]
    intro hs
    have hp := h.pend hs
    have hsum := sum_owes_update hi s.w s'.w hoth
    obtain ⟨q, hq | hq⟩ := wok_cases (h.ok i hi) hs
    · rw [rest_pending hq e]
      rw [owes_rest hq, owes_rest (rest_step hq e)] at hsum
      simp only [Bool.false_eq_true, if_false] at hsum
      omega
    · have ho := owes_work hq
      rcases work_step hq e with ⟨h1, h2⟩ | ⟨h1, h2⟩
      · rw [h2]
        rw [ho, owes_work h1] at hsum
        simp only [if_true] at hsum
        omega
      · rw [h2]
        rw [ho, owes_rest h1] at hsum
        simp only [Bool.false_eq_true, if_true, if_false] at hsum
        unfold decr
        have : s.pending ≠ 0 := by
          rw [hp]; omega
        rw [if_neg this]
        omega

/-! ### Steps of the coordinator -/

theorem wok_map {units : Nat → Nat → Nat} {c : CPc} {m i : Nat} {x y : Worker}
    (hr : ∀ q, Rest units i q x → Rest units i q y) (hw : ∀ q, Work units i q x → Work units i q y)
    (he : Exiting units i m x → Exiting units i m y) (hd : x.dead = false → y.dead = false)
    (hx : x.pc = .exited → y.pc = .exited) (h : WOk units c m i x) : WOk units c m i y := by
  have hrw : ∀ q, Rest units i q x ∨ Work units i q x → Rest units i q y ∨ Work units i q y :=
    fun q => Or.imp (hr q) (hw q)
  have hed : Exiting units i m x ∧ x.dead = false → Exiting units i m y ∧ y.dead = false :=
    And.imp he hd
  unfold WOk at h ⊢
  split at h
  · exact hr _ h
  · exact hr _ h
  · obtain ⟨h1, h2, h3⟩ := h
    refine ⟨h1, h2, ?_⟩
    split at h3 <;> rename_i hij <;> simp only [hij, if_true, if_false]
    · exact hrw _ h3
    · exact hr _ h3
  · obtain ⟨h1, h2, h3⟩ := h
    refine ⟨h1, h2, ?_⟩
    split at h3 <;> rename_i hij <;> simp only [hij, if_true, if_false]
    · exact hrw _ h3
    · exact hr _ h3
  · obtain ⟨h1, h2, h3⟩ := h
    refine ⟨h1, h2, ?_⟩
    split at h3 <;> rename_i hij <;> simp only [hij, if_true, if_false]
    · exact hrw _ h3
    · exact hr _ h3
  · obtain ⟨h1, h2, h3⟩ := h
    refine ⟨h1, h2, ?_⟩
    split at h3 <;> rename_i hij <;> simp only [hij, if_true, if_false]
    · exact hrw _ h3
    · exact hr _ h3
  · split at h <;> rename_i hij <;> simp only [hij, if_true, if_false]
    · exact hed h
    · exact hr _ h
  · split at h <;> rename_i hij <;> simp only [hij, if_true, if_false]
    · exact hed h
    · exact hr _ h
  · split at h <;> rename_i hij <;> simp only [hij, if_true, if_false]
    · exact hed h
    · exact hr _ h
  · split at h <;> rename_i hij <;> simp only [hij, if_true, if_false]
    · exact hed h
    · exact hr _ h
  · exact h
  · exact h
  · exact h
  · exact h
  · exact hrw _ h
  · exact hrw _ h
  · exact hrw _ h
  · exact ⟨he h.1, fun hj => hx (h.2 hj)⟩
  · exact ⟨he h.1, fun hj => hx (h.2 hj)⟩
  · exact ⟨he h.1, hx h.2⟩

/-- `x` woken up. -/
def woken (x : Worker) : Worker := { x with pc := if x.pc = .asleep then .waitLock else x.pc }

theorem wok_woken {units : Nat → Nat → Nat} {c : CPc} {m i : Nat} {x : Worker}
    (h : WOk units c m i x) : WOk units c m i (woken x) := by
  by_cases hp : x.pc = .asleep
  · have : woken x = { x with pc := .waitLock } := by simp [woken, hp]
    rw [this]
    refine wok_map ?_ ?_ ?_ ?_ ?_ h
    · intro q hr
      simp [Rest, hp] at hr ⊢
      exact hr
    · intro q hr
      simp [Work, hp] at hr ⊢
      exact hr
    · intro hr
      simp [Exiting, hp] at hr ⊢
      exact hr
    · exact id
    · intro hx; rw [hp] at hx; simp at hx
  · have : woken x = x := by simp [woken, hp]
    rw [this]; exact h

theorem wok_lock {units : Nat → Nat → Nat} {c : CPc} {m i : Nat} {x : Worker} (l : Option Owner)
    (h : WOk units c m i x) : WOk units c m i { x with lock := l } :=
  wok_map (fun _ h => h) (fun _ h => h) (fun h => h) (fun h => h) (fun h => h) h

theorem owes_woken (x : Worker) : owes (woken x) = owes x := by
  unfold woken owes
  cases hp : x.pc <;> simp [hp] <;> cases x.st <;> rfl

theorem holds_woken (x : Worker) : holds (woken x).pc = holds x.pc := by
  unfold woken
  by_cases hp : x.pc = .asleep <;> simp [hp, holds]

theorem woken_pc (x : Worker) : (woken x).pc ≠ .asleep := by
  unfold woken
  by_cases hp : x.pc = .asleep <;> simp [hp]

/-- Waking worker `i` keeps the invariant. -/
theorem inv_woken {units : Nat → Nat → Nat} {n i : Nat} {s : St} (h : Inv units n s) :
    Inv units n (s.setW i (woken (s.w i))) := by
  have hw : ∀ j, (s.setW i (woken (s.w i))).w j = if j = i then woken (s.w j) else s.w j := by
    intro j
    by_cases hj : j = i
    · subst hj; simp [St.setW]
    · simp [St.setW, hj]
  refine ⟨?_, ?_, ?_, ?_, ?_, h.idx⟩
  · intro j hj
    rw [hw j]
    split
    · exact wok_woken (h.ok j hj)
    · exact h.ok j hj
  · intro j hj
    rw [hw j]
    split
    · rw [holds_woken]; exact h.lockW j hj
    · exact h.lockW j hj
  · intro j hj
    rw [hw j]
    split
    · exact h.lockC j hj
    · exact h.lockC j hj
  · intro j hj
    rw [hw j]
    split
    · intro hp; exact absurd hp (woken_pc _)
    · exact h.sleepers j hj
  · intro hs
    have := h.pend hs
    show s.pending = _
    rw [this]
    congr 1
    refine Finset.sum_congr rfl fun j _ => ?_
    rw [hw j]
    by_cases hji : j = i
    · rw [if_pos hji, owes_woken]
    · rw [if_neg hji]

theorem inv_begin {units : Nat → Nat → Nat} {n : Nat} {s : St} (h : Inv units n s)
    (hc : s.coord = .idle) :
    Inv units n
      { s with pending := n, phase := s.phase + 1, coord := .wakeLock (.job (s.phase + 1)) 0 } := by
  have hok : ∀ i, i < n → Rest units i s.phase (s.w i) := by
    intro i hi
    have := h.ok i hi
    rw [hc] at this
    exact this
  refine ⟨?_, h.lockW, ?_, ?_, ?_, ?_⟩
  · intro i hi
    refine ⟨rfl, Nat.succ_pos _, ?_⟩
    simp only [Nat.not_lt_zero, if_false]
    exact hok i hi
  · intro i hi
    have := h.lockC i hi
    rw [hc] at this
    exact this
  · intro i hi
    have := h.sleepers i hi
    rw [hc] at this
    exact this
  · intro _
    have : ∑ i ∈ Finset.range n, (if owes (s.w i) then 1 else 0) = 0 :=
      Finset.sum_eq_zero fun i hi => by rw [owes_rest (hok i (Finset.mem_range.1 hi))]; rfl
    show n = _
    simp only [this, notWoken]
    omega
  · have := h.idx
    rw [hc] at this
    exact this

/-- Facts that only depend on the coordinator's position. -/
theorem inv_coord {units : Nat → Nat → Nat} {n : Nat} {s : St} {c : CPc} (h : Inv units n s)
    (hok : ∀ i, i < n → WOk units c s.phase i (s.w i))
    (h1 : ∀ i, i < n → (coordHolds c i ↔ coordHolds s.coord i))
    (h2 : ∀ i, i < n → (s.w i).pc = .asleep → coordWaking s.coord i → coordWaking c i)
    (h3 : shutting c = false → shutting s.coord = false ∧ notWoken n c = notWoken n s.coord)
    (h4 : index c < n) : Inv units n { s with coord := c } := by
  refine ⟨hok, h.lockW, ?_, ?_, ?_, h4⟩
  · intro i hi; exact (h.lockC i hi).trans (h1 i hi).symm
  · intro i hi hp hs; exact h2 i hi hp (h.sleepers i hi hp hs)
  · intro hs
    obtain ⟨ha, hb⟩ := h3 hs
    show s.pending = _ + notWoken n c
    rw [hb]
    exact h.pend ha

theorem inv_coordStep {units : Nat → Nat → Nat} {n : Nat} {s s' : St} (hn : 0 < n)
    (hu : ∀ p i, 0 < units p i)
    (h : Inv units n s) (e : coordStep units n s = some s') : Inv units n s' := by
  unfold coordStep at e
  have hidx := h.idx
  split at e
  · simp at e
  · -- wakeLock
    rename_i cmd i hc
    rw [hc] at hidx
    have hi : i < n := hidx
    simp only at e
    split at e
    · rename_i hl
      obtain rfl := Option.some.inj e
      have hw : ∀ j, (s.setW i { s.w i with lock := some .coord }).w j =
          if j = i then { s.w j with lock := some .coord } else s.w j := by
        intro j
        by_cases hj : j = i
        · subst hj; simp [St.setW]
        · simp [St.setW, hj]
      refine ⟨?_, ?_, ?_, ?_, ?_, hidx⟩
      · intro j hj
        have := h.ok j hj
        rw [hc] at this
        have h2 : WOk units (.wakeSet cmd i) s.phase j (s.w j) := by
          cases cmd <;> exact this
        show WOk units _ s.phase j ((s.setW i { s.w i with lock := some .coord }).w j)
        rw [hw j]
        split
        · exact wok_lock _ h2
        · exact h2
      · intro j hj
        have := h.lockW j hj
        show ((s.setW i { s.w i with lock := some .coord }).w j).lock = _ ↔
          holds ((s.setW i { s.w i with lock := some .coord }).w j).pc = _
        rw [hw j]
        split
        · rename_i hji
          subst hji
          rw [hl] at this
          simpa using this
        · exact this
      · intro j hj
        have := h.lockC j hj
        rw [hc] at this
        show ((s.setW i { s.w i with lock := some .coord }).w j).lock = _ ↔ _
        rw [hw j]
        split
        · rename_i hji
          simpa [coordHolds] using hji
        · rename_i hji
          rw [this]
          simp [coordHolds, hji]
      · intro j hj
        have := h.sleepers j hj
        rw [hc] at this
        show ((s.setW i { s.w i with lock := some .coord }).w j).pc = _ →
          ((s.setW i { s.w i with lock := some .coord }).w j).st ≠ _ → _
        rw [hw j]
        split
        · exact this
        · exact this
      · intro hs
        have := h.pend (by rw [hc]; cases cmd <;> first | exact hs | rfl)
        rw [hc] at this
        show s.pending = _
        rw [this]
        congr 1
        · refine Finset.sum_congr rfl fun j _ => ?_
          show _ = if owes ((s.setW i { s.w i with lock := some .coord }).w j) = true then 1 else 0
          rw [hw j]
          by_cases hji : j = i
          · rw [if_pos hji]; rfl
          · rw [if_neg hji]
        · cases cmd <;> rfl
    · simp at e
  · -- wakeSet
    rename_i cmd i hc
    rw [hc] at hidx
    have hi : i < n := hidx
    simp only at e
    obtain rfl := Option.some.inj e
    have hlk : (s.w i).lock = some .coord := (h.lockC i hi).2 (by rw [hc]; rfl)
    have hnh : holds (s.w i).pc = false := by
      have := h.lockW i hi
      rw [hlk] at this
      simpa using this
    have hrest : ∀ q, Rest units i q (s.w i) → (s.w i).log = hist units i q ∧ (s.w i).dead = false ∧
        ((s.w i).pc = .top ∨ (s.w i).pc = .waitLock ∨ (s.w i).pc = .asleep) := by
      rintro q ⟨a, b, ⟨_, hp⟩ | ⟨hp, _⟩⟩
      · refine ⟨a, b, ?_⟩
        rcases hp with hp | hp | hp | hp | hp | hp | hp <;> rw [hp] at hnh ⊢ <;>
          simp [holds] at hnh ⊢
      · rw [hp] at hnh; simp [holds] at hnh
    have hoki := h.ok i hi
    rw [hc] at hoki
    have hokj : ∀ j, j < n → WOk units (.wakeSet cmd i) s.phase j (s.w j) := by
      intro j hj
      have := h.ok j hj
      rw [hc] at this
      exact this
    cases cmd with
    | wait => exact hoki.elim
    | job p =>
      obtain ⟨hp, hm, hr⟩ := hoki
      rw [if_neg (lt_irrefl i)] at hr
      obtain ⟨hlog, hdead, hpc⟩ := hrest _ hr
      subst hp
      have hwork : Work units i s.phase
          { s.w i with st := .job s.phase, rem := units s.phase i } := by
        refine ⟨rfl, hm, le_refl _, hdead, ?_, Or.inl ⟨hu _ _, ?_⟩⟩
        · show (s.w i).log = _
          rw [hlog]; simp
        · rcases hpc with hpc | hpc | hpc <;> simp [hpc]
      refine ⟨?_, ?_, ?_, ?_, ?_, hidx⟩
      · intro j hj
        show WOk units (.wakeUnlock (.job s.phase) i) s.phase j (Function.update s.w i _ j)
        refine ⟨rfl, hm, ?_⟩
        by_cases hji : j = i
        · subst hji
          rw [if_pos (Nat.lt_succ_self j), Function.update_self]
          exact Or.inr hwork
        · rw [Function.update_of_ne hji]
          have h3 := (hokj j hj).2.2
          by_cases hlt : j < i
          · rw [if_pos hlt] at h3
            rw [if_pos (by omega)]
            exact h3
          · rw [if_neg hlt] at h3
            rw [if_neg (by omega)]
            exact h3
      · intro j hj
        show (Function.update s.w i _ j).lock = _ ↔ holds (Function.update s.w i _ j).pc = _
        by_cases hji : j = i
        · subst hji; rw [Function.update_self]; exact h.lockW j hj
        · rw [Function.update_of_ne hji]; exact h.lockW j hj
      · intro j hj
        have := h.lockC j hj
        rw [hc] at this
        show (Function.update s.w i _ j).lock = _ ↔ _
        by_cases hji : j = i
        · subst hji; rw [Function.update_self]; exact this
        · rw [Function.update_of_ne hji]; exact this
      · intro j hj
        have := h.sleepers j hj
        rw [hc] at this
        show (Function.update s.w i _ j).pc = _ → (Function.update s.w i _ j).st ≠ _ → _
        by_cases hji : j = i
        · intro _ _; exact hji
        · rw [Function.update_of_ne hji]
          intro h1 h2
          exact (this h1 h2).elim
      · intro _
        have := h.pend (by rw [hc]; rfl)
        rw [hc] at this
        have hsum := sum_owes_update hi s.w
          (Function.update s.w i { s.w i with st := .job s.phase, rem := units s.phase i })
          (fun j hj => Function.update_of_ne hj _ _)
        rw [Function.update_self, owes_work hwork, owes_rest hr] at hsum
        simp only [Bool.false_eq_true, if_true, if_false] at hsum
        show s.pending = (∑ j ∈ Finset.range n, if owes (Function.update s.w i _ j) = true then 1
          else 0) + _
        simp only [notWoken] at this ⊢
        omega
    | exit =>
      simp only [WOk, lt_irrefl, if_false] at hoki
      obtain ⟨hlog, hdead, hpc⟩ := hrest _ hoki
      have hex : Exiting units i s.phase { s.w i with st := .exit } := by
        refine ⟨rfl, hlog, ?_⟩
        rcases hpc with hpc | hpc | hpc <;> simp [hpc]
      refine ⟨?_, ?_, ?_, ?_, ?_, hidx⟩
      · intro j hj
        show WOk units (.wakeUnlock .exit i) s.phase j (Function.update s.w i _ j)
        have h3 := hokj j hj
        simp only [WOk] at h3 ⊢
        by_cases hji : j = i
        · subst hji
          rw [if_pos (Nat.lt_succ_self j), Function.update_self]
          exact ⟨hex, hdead⟩
        · rw [Function.update_of_ne hji]
          by_cases hlt : j < i
          · rw [if_pos hlt] at h3
            rw [if_pos (by omega)]
            exact h3
          · rw [if_neg hlt] at h3
            rw [if_neg (by omega)]
            exact h3
      · intro j hj
        show (Function.update s.w i _ j).lock = _ ↔ holds (Function.update s.w i _ j).pc = _
        by_cases hji : j = i
        · subst hji; rw [Function.update_self]; exact h.lockW j hj
        · rw [Function.update_of_ne hji]; exact h.lockW j hj
      · intro j hj
        have := h.lockC j hj
        rw [hc] at this
        show (Function.update s.w i _ j).lock = _ ↔ _
        by_cases hji : j = i
        · subst hji; rw [Function.update_self]; exact this
        · rw [Function.update_of_ne hji]; exact this
      · intro j hj
        have := h.sleepers j hj
        rw [hc] at this
        show (Function.update s.w i _ j).pc = _ → (Function.update s.w i _ j).st ≠ _ → _
        by_cases hji : j = i
        · intro _ _; exact hji
        · rw [Function.update_of_ne hji]
          intro h1 h2
          exact (this h1 h2).elim
      · intro hs; simp [shutting] at hs
  · -- wakeUnlock
    rename_i cmd i hc
    rw [hc] at hidx
    have hi : i < n := hidx
    obtain rfl := Option.some.inj e
    have hlk : (s.w i).lock = some .coord := (h.lockC i hi).2 (by rw [hc]; rfl)
    have hw : ∀ j, (s.setW i { s.w i with lock := none }).w j =
        if j = i then { s.w j with lock := none } else s.w j := by
      intro j
      by_cases hj : j = i
      · subst hj; simp [St.setW]
      · simp [St.setW, hj]
    refine ⟨?_, ?_, ?_, ?_, ?_, hidx⟩
    · intro j hj
      have := h.ok j hj
      rw [hc] at this
      have h2 : WOk units (.wakeSignal cmd i) s.phase j (s.w j) := by
        cases cmd <;> exact this
      show WOk units _ s.phase j ((s.setW i { s.w i with lock := none }).w j)
      rw [hw j]
      split
      · exact wok_lock _ h2
      · exact h2
    · intro j hj
      have := h.lockW j hj
      show ((s.setW i { s.w i with lock := none }).w j).lock = _ ↔
        holds ((s.setW i { s.w i with lock := none }).w j).pc = _
      rw [hw j]
      split
      · rename_i hji
        subst hji
        rw [hlk] at this
        simpa using this
      · exact this
    · intro j hj
      have := h.lockC j hj
      rw [hc] at this
      show ((s.setW i { s.w i with lock := none }).w j).lock = _ ↔ _
      rw [hw j]
      split
      · simp [coordHolds]
      · rename_i hji
        rw [this]
        simp [coordHolds, hji]
    · intro j hj
      have := h.sleepers j hj
      rw [hc] at this
      show ((s.setW i { s.w i with lock := none }).w j).pc = _ →
        ((s.setW i { s.w i with lock := none }).w j).st ≠ _ → _
      rw [hw j]
      split
      · exact this
      · exact this
    · intro hs
      have := h.pend (by rw [hc]; cases cmd <;> first | exact hs | rfl)
      rw [hc] at this
      show s.pending = _
      rw [this]
      congr 1
      · refine Finset.sum_congr rfl fun j _ => ?_
        show _ = if owes ((s.setW i { s.w i with lock := none }).w j) = true then 1 else 0
        rw [hw j]
        by_cases hji : j = i
        · rw [if_pos hji]; rfl
        · rw [if_neg hji]
      · cases cmd <;> rfl
  · -- wakeSignal
    rename_i cmd i hc
    rw [hc] at hidx
    have hi : i < n := hidx
    simp only at e
    obtain rfl := Option.some.inj e
    have h' := inv_woken (i := i) h
    have hco : (s.setW i (woken (s.w i))).coord = .wakeSignal cmd i := hc
    refine inv_coord (s := s.setW i (woken (s.w i))) h' ?_ ?_ ?_ ?_ ?_
    · intro j hj
      have := h'.ok j hj
      rw [hco] at this
      cases cmd with
      | wait => exact this.elim
      | job p =>
        split
        · exact this
        · rename_i hlast
          rw [if_neg (by simp)]
          have h3 := this.2.2
          rw [if_pos (by omega)] at h3
          exact h3
      | exit =>
        split
        · exact this
        · rename_i hlast
          rw [if_pos rfl]
          simp only [WOk] at this
          rw [if_pos (by omega)] at this
          exact ⟨this.1, fun h0 => absurd h0 (Nat.not_lt_zero _)⟩
    · intro j hj
      rw [hco]
      split
      · rfl
      · split <;> rfl
    · intro j hj hp hcw
      rw [hco] at hcw
      have : j = i := hcw
      subst this
      simp only [St.setW, Function.update_self] at hp
      exact absurd hp (woken_pc _)
    · intro hs
      rw [hco]
      cases cmd with
      | wait =>
        have := h.ok i hi
        rw [hc] at this
        exact this.elim
      | job p =>
        refine ⟨rfl, ?_⟩
        split
        · rfl
        · rename_i hlast
          rw [if_neg (by simp)]
          simp only [notWoken]
          omega
      | exit =>
        split at hs
        · simp [shutting] at hs
        · simp [shutting] at hs
    · split
      · assumption
      · split
        · exact hn
        · exact hn
  · -- waitCheck
    rename_i hc
    obtain rfl := Option.some.inj e
    refine inv_coord h ?_ ?_ ?_ ?_ ?_
    · intro j hj
      have := h.ok j hj
      rw [hc] at this
      split
      · rename_i hp0
        have hp := h.pend (by rw [hc]; rfl)
        rw [hp0] at hp
        rcases this with hr | hw
        · exact hr
        · exfalso
          have h1 : (if owes (s.w j) then 1 else 0) ≤
              ∑ j ∈ Finset.range n, (if owes (s.w j) then 1 else 0) :=
            Finset.single_le_sum (f := fun j => if owes (s.w j) then 1 else 0)
              (fun _ _ => Nat.zero_le _) (Finset.mem_range.2 hj)
          rw [owes_work hw] at h1
          simp only [if_true] at h1
          omega
      · exact this
    · intro j hj; rw [hc]; split <;> rfl
    · intro j hj _; rw [hc]; exact fun h => h.elim
    · intro _; rw [hc]; refine ⟨rfl, ?_⟩; split <;> rfl
    · split <;> exact hn
  · -- waitEnter
    rename_i hc
    obtain rfl := Option.some.inj e
    refine inv_coord h ?_ ?_ ?_ ?_ ?_
    · intro j hj
      have := h.ok j hj
      rw [hc] at this
      exact this
    · intro j hj; rw [hc]; rfl
    · intro j hj _; rw [hc]; exact fun h => h.elim
    · intro _; rw [hc]; exact ⟨rfl, rfl⟩
    · exact hn
  · simp at e
  · -- closing
    rename_i hc
    obtain rfl := Option.some.inj e
    have hok := h.ok
    refine ⟨?_, h.lockW, ?_, ?_, ?_, hn⟩
    · intro j hj
      have := h.ok j hj
      rw [hc] at this
      exact this
    · intro j hj
      have := h.lockC j hj
      rw [hc] at this
      exact this
    · intro j hj
      have := h.sleepers j hj
      rw [hc] at this
      exact this
    · intro hs; simp [shutting] at hs
  · -- destroyW
    rename_i i hc
    rw [hc] at hidx
    have hi : i < n := hidx
    obtain rfl := Option.some.inj e
    have hw : ∀ j, (s.setW i { s.w i with dead := true }).w j =
        if j = i then { s.w j with dead := true } else s.w j := by
      intro j
      by_cases hj : j = i
      · subst hj; simp [St.setW]
      · simp [St.setW, hj]
    refine ⟨?_, ?_, ?_, ?_, ?_, hidx⟩
    · intro j hj
      have := h.ok j hj
      rw [hc] at this
      show WOk units _ s.phase j ((s.setW i { s.w i with dead := true }).w j)
      rw [hw j]
      split
      · exact this
      · exact this
    · intro j hj
      have := h.lockW j hj
      show ((s.setW i { s.w i with dead := true }).w j).lock = _ ↔
        holds ((s.setW i { s.w i with dead := true }).w j).pc = _
      rw [hw j]
      split <;> exact this
    · intro j hj
      have := h.lockC j hj
      rw [hc] at this
      show ((s.setW i { s.w i with dead := true }).w j).lock = _ ↔ _
      rw [hw j]
      split <;> exact this
    · intro j hj
      have := h.sleepers j hj
      rw [hc] at this
      show ((s.setW i { s.w i with dead := true }).w j).pc = _ →
        ((s.setW i { s.w i with dead := true }).w j).st ≠ _ → _
      rw [hw j]
      split <;> exact this
    · intro hs; simp [shutting] at hs
  · -- joinW
    rename_i i hc
    rw [hc] at hidx
    have hi : i < n := hidx
    split at e
    · rename_i hx
      obtain rfl := Option.some.inj e
      refine inv_coord h ?_ ?_ ?_ ?_ ?_
      · intro j hj
        have := h.ok j hj
        rw [hc] at this
        obtain ⟨h1, h2⟩ := this
        have h3 : j < i + 1 → (s.w j).pc = .exited := by
          intro hlt
          by_cases hji : j = i
          · subst hji; exact hx
          · exact h2 (by omega)
        split
        · exact ⟨h1, h3⟩
        · exact ⟨h1, h3 (by omega)⟩
      · intro j hj; rw [hc]; split <;> rfl
      · intro j hj _; rw [hc]; exact fun h => h.elim
      · intro hs; split at hs <;> simp [shutting] at hs
      · split
        · assumption
        · exact hn
    · simp at e
  · simp at e

theorem inv_step {units : Nat → Nat → Nat} {n : Nat} {s s' : St} {a : Action} (hn : 0 < n)
    (hu : ∀ p i, 0 < units p i) (h : Inv units n s) (e : step units n s a = some s') :
    Inv units n s' := by
  cases a with
  | begin =>
    simp only [step] at e
    split at e
    · obtain rfl := Option.some.inj e
      exact inv_begin h (by assumption)
    · simp at e
  | close =>
    simp only [step] at e
    split at e
    · rename_i hc
      obtain rfl := Option.some.inj e
      refine inv_coord h ?_ ?_ ?_ ?_ hn
      · intro j hj
        have := h.ok j hj
        rw [hc] at this
        exact this
      · intro j hj; rw [hc]; rfl
      · intro j hj _; rw [hc]; exact fun h => h.elim
      · intro _; rw [hc]; exact ⟨rfl, rfl⟩
    · simp at e
  | coord => exact inv_coordStep hn hu h e
  | worker i =>
    simp only [step] at e
    split at e
    · exact inv_worker (by assumption) h e
    · simp at e
  | spuriousWorker i =>
    simp only [step] at e
    split at e
    · rename_i hc
      obtain rfl := Option.some.inj e
      have := inv_woken (i := i) h
      rw [show woken (s.w i) = { s.w i with pc := .waitLock } by simp [woken, hc.2]] at this
      exact this
    · simp at e
  | spuriousCoord =>
    simp only [step] at e
    split at e
    · rename_i hc
      obtain rfl := Option.some.inj e
      refine inv_coord h ?_ ?_ ?_ ?_ hn
      · intro j hj
        have := h.ok j hj
        rw [hc] at this
        exact this
      · intro j hj; rw [hc]; rfl
      · intro j hj _; rw [hc]; exact fun h => h.elim
      · intro _; rw [hc]; exact ⟨rfl, rfl⟩
    · simp at e

theorem inv_exec {units : Nat → Nat → Nat} {n : Nat} (hn : 0 < n) (hu : ∀ p i, 0 < units p i) :
    ∀ (l : List Action) (s s' : St), Inv units n s → exec units n s l = some s' → Inv units n s' := by
  intro l
  induction l with
  | nil => intro s s' h e; obtain rfl := Option.some.inj e; exact h
  | cons a l ih =>
    intro s s' h e
    unfold exec at e
    split at e
    · simp at e
    · rename_i s1 h1
      exact ih s1 s' (inv_step hn hu h h1) e

/-- Every reachable state satisfies the invariant. -/
theorem reachable_inv {units : Nat → Nat → Nat} {n : Nat} {s : St} (hn : 0 < n)
    (hu : ∀ p i, 0 < units p i) (h : Reachable units n s) : Inv units n s := by
  obtain ⟨l, e⟩ := h
  exact inv_exec hn hu l init s (init_inv hn) e

/-! ### Progress -/

theorem rest_atRest {units : Nat → Nat → Nat} {i m : Nat} {x : Worker} (h : Rest units i m x) :
    AtRest x := by
  obtain ⟨_, _, h⟩ := h
  rcases h with ⟨h, hp⟩ | ⟨hp, _⟩
  · refine ⟨Or.inl h, ?_⟩
    rcases hp with hp | hp | hp | hp | hp | hp | hp <;> rw [hp] <;> simp
  · refine ⟨Or.inr hp, ?_⟩
    rw [hp]; simp

/-- A worker in a critical section can go on. -/
theorem holds_enabled {units : Nat → Nat → Nat} {i : Nat} {s : St}
    (h : holds (s.w i).pc = true) : workerStep units i s ≠ none := by
  unfold workerStep
  cases hp : (s.w i).pc <;> rw [hp] at h <;> simp [holds] at h <;> simp only [hp]
  · simp
  · split <;> simp
  · simp
  · simp
  · split <;> simp
  · simp

/-- A worker about to take its free mutex, or outside any critical section, can go on. -/
theorem free_enabled {units : Nat → Nat → Nat} {i : Nat} {s : St} (hl : (s.w i).lock = none)
    (h1 : (s.w i).pc ≠ .asleep) (h2 : (s.w i).pc ≠ .exited) (h3 : (s.w i).pc ≠ .threw) :
    workerStep units i s ≠ none := by
  unfold workerStep
  cases hp : (s.w i).pc <;> simp only [hp, hl] <;> (try (simp at *; done)) <;>
    (try (split <;> simp; done))
  · exact absurd hp h1
  · exact absurd hp h2
  · exact absurd hp h3

theorem worker_enabled {units : Nat → Nat → Nat} {n i : Nat} {s : St} (h : Inv units n s)
    (hi : i < n) (hc : ¬ coordHolds s.coord i)
    (h1 : (s.w i).pc ≠ .asleep) (h2 : (s.w i).pc ≠ .exited) (h3 : (s.w i).pc ≠ .threw) :
    workerStep units i s ≠ none := by
  cases hl : (s.w i).lock with
  | none => exact free_enabled hl h1 h2 h3
  | some o =>
    cases o with
    | worker => exact holds_enabled ((h.lockW i hi).1 hl)
    | coord => exact absurd ((h.lockC i hi).1 hl) hc

theorem progress {units : Nat → Nat → Nat} {n : Nat} {s : St} (h : Inv units n s)
    (hst : ∀ a : Action, a.inner = true → step units n s a = none) :
    s.coord = .idle ∨ s.coord = .finished ∨ LostWakeup s := by
  have hcs : coordStep units n s = none := hst .coord rfl
  have hws : ∀ i, i < n → workerStep units i s = none := by
    intro i hi
    have := hst (.worker i) rfl
    simpa [step, hi] using this
  cases hc : s.coord with
  | idle => exact Or.inl rfl
  | wakeLock cmd i =>
    exfalso
    have hi : i < n := by have := h.idx; rw [hc] at this; exact this
    unfold coordStep at hcs
    simp only [hc] at hcs
    cases hl : (s.w i).lock with
    | none => simp [hl] at hcs
    | some o =>
      cases o with
      | worker => exact holds_enabled ((h.lockW i hi).1 hl) (hws i hi)
      | coord =>
        have := (h.lockC i hi).1 hl
        rw [hc] at this
        exact this
  | wakeSet cmd i => unfold coordStep at hcs; simp [hc] at hcs
  | wakeUnlock cmd i => unfold coordStep at hcs; simp [hc] at hcs
  | wakeSignal cmd i => unfold coordStep at hcs; simp [hc] at hcs
  | waitCheck => unfold coordStep at hcs; simp [hc] at hcs
  | waitEnter => unfold coordStep at hcs; simp [hc] at hcs
  | blocked =>
    right; right
    refine ⟨hc, ?_⟩
    by_contra hp
    have hpend := h.pend (by rw [hc]; rfl)
    rw [hc] at hpend
    have hsum : (∑ i ∈ Finset.range n, if owes (s.w i) then 1 else 0) ≠ 0 := by
      intro h0; rw [h0] at hpend; exact hp hpend
    obtain ⟨i, hi, ho⟩ := Finset.exists_ne_zero_of_sum_ne_zero hsum
    have hi := Finset.mem_range.1 hi
    have hok := h.ok i hi
    rw [hc] at hok
    rcases hok with hr | hw
    · rw [owes_rest hr] at ho; simp at ho
    · obtain ⟨hst, _, _, _, _, hpc⟩ := hw
      refine worker_enabled h hi ?_ ?_ ?_ ?_ (hws i hi)
      · rw [hc]; exact id
      · intro hp
        have := h.sleepers i hi hp (by rw [hst]; simp)
        rw [hc] at this
        exact this
      · intro hp
        rw [hp] at hpc
        simp at hpc
      · intro hp
        rw [hp] at hpc
        simp at hpc
  | closing => unfold coordStep at hcs; simp [hc] at hcs
  | destroyW i => unfold coordStep at hcs; simp [hc] at hcs
  | joinW i =>
    exfalso
    have hi : i < n := by have := h.idx; rw [hc] at this; exact this
    unfold coordStep at hcs
    simp only [hc] at hcs
    split at hcs
    · simp at hcs
    · rename_i hx
      have hok := h.ok i hi
      rw [hc] at hok
      obtain ⟨hst, _, hpc⟩ := hok.1
      refine worker_enabled h hi ?_ ?_ hx ?_ (hws i hi)
      · rw [hc]; exact id
      · intro hp
        have := h.sleepers i hi hp (by rw [hst]; simp)
        rw [hc] at this
        exact this
      · intro hp
        rw [hp] at hpc
        simp at hpc
  | finished => exact Or.inr (Or.inl rfl)

/-! ### Logs at every moment -/

theorem log_between {units : Nat → Nat → Nat} {n i : Nat} {s : St} (h : Inv units n s)
    (hi : i < n) :
    ∃ t, t ≤ units s.phase i ∧
      ((s.w i).log = hist units i s.phase ∨
        (0 < s.phase ∧ (s.w i).log =
          hist units i (s.phase - 1) ++ (List.range t).map fun u => (s.phase, u))) := by
  have hok := h.ok i hi
  have hrest : Rest units i s.phase (s.w i) → ∃ t, t ≤ units s.phase i ∧
      ((s.w i).log = hist units i s.phase ∨
        (0 < s.phase ∧ (s.w i).log =
          hist units i (s.phase - 1) ++ (List.range t).map fun u => (s.phase, u))) :=
    fun h => ⟨0, Nat.zero_le _, Or.inl h.1⟩
  have hex : Exiting units i s.phase (s.w i) → ∃ t, t ≤ units s.phase i ∧
      ((s.w i).log = hist units i s.phase ∨
        (0 < s.phase ∧ (s.w i).log =
          hist units i (s.phase - 1) ++ (List.range t).map fun u => (s.phase, u))) :=
    fun h => ⟨0, Nat.zero_le _, Or.inl h.2.1⟩
  have hrw : Rest units i s.phase (s.w i) ∨ Work units i s.phase (s.w i) →
      ∃ t, t ≤ units s.phase i ∧
      ((s.w i).log = hist units i s.phase ∨
        (0 < s.phase ∧ (s.w i).log =
          hist units i (s.phase - 1) ++ (List.range t).map fun u => (s.phase, u))) := by
    rintro (h | ⟨_, hm, _, _, hl, _⟩)
    · exact hrest h
    · exact ⟨_, Nat.sub_le _ _, Or.inr ⟨hm, hl⟩⟩
  have hprev : 0 < s.phase → Rest units i (s.phase - 1) (s.w i) → ∃ t, t ≤ units s.phase i ∧
      ((s.w i).log = hist units i s.phase ∨
        (0 < s.phase ∧ (s.w i).log =
          hist units i (s.phase - 1) ++ (List.range t).map fun u => (s.phase, u))) :=
    fun hm h => ⟨0, Nat.zero_le _, Or.inr ⟨hm, by rw [h.1]; simp⟩⟩
  unfold WOk at hok
  split at hok
  · exact hrest hok
  · exact hrest hok
  · obtain ⟨_, hm, h3⟩ := hok
    split at h3
    · exact hrw h3
    · exact hprev hm h3
  · obtain ⟨_, hm, h3⟩ := hok
    split at h3
    · exact hrw h3
    · exact hprev hm h3
  · obtain ⟨_, hm, h3⟩ := hok
    split at h3
    · exact hrw h3
    · exact hprev hm h3
  · obtain ⟨_, hm, h3⟩ := hok
    split at h3
    · exact hrw h3
    · exact hprev hm h3
  · split at hok
    · exact hex hok.1
    · exact hrest hok
  · split at hok
    · exact hex hok.1
    · exact hrest hok
  · split at hok
    · exact hex hok.1
    · exact hrest hok
  · split at hok
    · exact hex hok.1
    · exact hrest hok
  · exact hok.elim
  · exact hok.elim
  · exact hok.elim
  · exact hok.elim
  · exact hrw hok
  · exact hrw hok
  · exact hrw hok
  · exact hex hok.1
  · exact hex hok.1
  · exact hex hok.1

theorem never_threw {units : Nat → Nat → Nat} {n i : Nat} {s : St} (h : Inv units n s)
    (hi : i < n) : (s.w i).pc ≠ .threw := by
  intro hp
  have hr : ∀ q, ¬ Rest units i q (s.w i) := by
    intro q hq
    have := (rest_atRest hq).2.2.2.2.1
    exact this hp
  have hw : ∀ q, ¬ Work units i q (s.w i) := by
    rintro q ⟨_, _, _, _, _, hq⟩
    rw [hp] at hq
    simp at hq
  have he : ¬ Exiting units i s.phase (s.w i) := by
    rintro ⟨_, _, hq⟩
    rw [hp] at hq
    simp at hq
  have hrw : ∀ q, ¬ (Rest units i q (s.w i) ∨ Work units i q (s.w i)) :=
    fun q h => h.elim (hr q) (hw q)
  by_cases hs : shutting s.coord = false
  · obtain ⟨q, hq⟩ := wok_cases (h.ok i hi) hs
    exact hrw q hq
  · have hok := h.ok i hi
    cases hc : s.coord with
    | wakeLock c j =>
      rw [hc] at hok
      cases c with
      | exit => simp only [WOk] at hok; split at hok; exacts [he hok.1, hr _ hok]
      | _ => simp [hc, shutting] at hs
    | wakeSet c j =>
      rw [hc] at hok
      cases c with
      | exit => simp only [WOk] at hok; split at hok; exacts [he hok.1, hr _ hok]
      | _ => simp [hc, shutting] at hs
    | wakeUnlock c j =>
      rw [hc] at hok
      cases c with
      | exit => simp only [WOk] at hok; split at hok; exacts [he hok.1, hr _ hok]
      | _ => simp [hc, shutting] at hs
    | wakeSignal c j =>
      rw [hc] at hok
      cases c with
      | exit => simp only [WOk] at hok; split at hok; exacts [he hok.1, hr _ hok]
      | _ => simp [hc, shutting] at hs
    | destroyW j => rw [hc] at hok; exact he hok.1
    | joinW j => rw [hc] at hok; exact he hok.1
    | finished => rw [hc] at hok; exact he hok.1
    | _ => simp [hc, shutting] at hs

theorem pending_le {units : Nat → Nat → Nat} {n : Nat} {s : St} (h : Inv units n s)
    (hs : shutting s.coord = false) : s.pending ≤ n := by
  rw [h.pend hs]
  have hidx := h.idx
  -- workers not yet woken owe nothing
  have key : ∀ k, k ≤ n → (∀ i, i < n → k ≤ i → owes (s.w i) = false) →
      (∑ i ∈ Finset.range n, if owes (s.w i) then 1 else 0) ≤ k := by
    intro k hk hz
    calc (∑ i ∈ Finset.range n, if owes (s.w i) then 1 else 0)
        ≤ ∑ i ∈ Finset.range n, if i < k then 1 else 0 := by
          refine Finset.sum_le_sum fun i hi => ?_
          by_cases hik : i < k
          · rw [if_pos hik]; split <;> omega
          · rw [hz i (Finset.mem_range.1 hi) (by omega)]; simp
      _ ≤ k := by
          rw [← Finset.sum_filter, ← Finset.card_eq_sum_ones]
          calc ((Finset.range n).filter (· < k)).card ≤ (Finset.range k).card := by
                refine Finset.card_le_card fun x hx => ?_
                exact Finset.mem_range.2 (Finset.mem_filter.1 hx).2
            _ = k := Finset.card_range k
  cases hc : s.coord with
  | wakeLock c j =>
    rw [hc] at hidx hs
    cases c with
    | job p =>
      have := key j (le_of_lt hidx) (fun i hi hji => by
        have := h.ok i hi
        rw [hc] at this
        have h3 := this.2.2
        rw [if_neg (by omega)] at h3
        exact owes_rest h3)
      simp only [notWoken, index] at hidx ⊢
      omega
    | wait => have := key n le_rfl (fun i hi hji => by omega); simpa [notWoken] using this
    | exit => simp [shutting] at hs
  | wakeSet c j =>
    rw [hc] at hidx hs
    cases c with
    | job p =>
      have := key j (le_of_lt hidx) (fun i hi hji => by
        have := h.ok i hi
        rw [hc] at this
        have h3 := this.2.2
        rw [if_neg (by omega)] at h3
        exact owes_rest h3)
      simp only [notWoken, index] at hidx ⊢
      omega
    | wait => have := key n le_rfl (fun i hi hji => by omega); simpa [notWoken] using this
    | exit => simp [shutting] at hs
  | wakeUnlock c j =>
    rw [hc] at hidx hs
    cases c with
    | job p =>
      have := key (j + 1) hidx (fun i hi hji => by
        have := h.ok i hi
        rw [hc] at this
        have h3 := this.2.2
        rw [if_neg (by omega)] at h3
        exact owes_rest h3)
      simp only [notWoken, index] at hidx ⊢
      omega
    | wait => have := key n le_rfl (fun i hi hji => by omega); simpa [notWoken] using this
    | exit => simp [shutting] at hs
  | wakeSignal c j =>
    rw [hc] at hidx hs
    cases c with
    | job p =>
      have := key (j + 1) hidx (fun i hi hji => by
        have := h.ok i hi
        rw [hc] at this
        have h3 := this.2.2
        rw [if_neg (by omega)] at h3
        exact owes_rest h3)
      simp only [notWoken, index] at hidx ⊢
      omega
    | wait => have := key n le_rfl (fun i hi hji => by omega); simpa [notWoken] using this
    | exit => simp [shutting] at hs
  | _ =>
    have := key n le_rfl (fun i hi hji => by omega)
    simpa [notWoken] using this

/-! ### A phase takes a bounded number of steps -/

/-- How far a worker is from sleeping. -/
def pcVal : WPc → Nat
  | .reqLock => 14
  | .reqChk => 13
  | .sleepSet => 12
  | .sleepTest => 11
  | .sleepSignal => 10
  | .sleepUnlock => 9
  | .top => 8
  | .waitLock => 7
  | .waitChk => 6
  | .asleep => 5
  | .runChk => 4
  | .exited => 0
  | .threw => 0

def wVal (x : Worker) : Nat := 4 * (20 * x.rem + pcVal x.pc)

/-- Cost of waking worker `i`. -/
def wakeCost (units : Nat → Nat → Nat) (cmd : TState) (i : Nat) : Nat :=
  match cmd with
  | .job p => 80 * units p i + 12
  | _ => 12

def wakeRest (units : Nat → Nat → Nat) (n : Nat) (cmd : TState) (j : Nat) : Nat :=
  (∑ i ∈ Finset.Ico j n, wakeCost units cmd i) + (2 * n + 2)

def cVal (units : Nat → Nat → Nat) (n : Nat) : CPc → Nat
  | .idle => 0
  | .wakeLock cmd j => wakeRest units n cmd j
  | .wakeSet cmd j => wakeRest units n cmd j - 1
  | .wakeUnlock cmd j => wakeRest units n cmd (j + 1) + 10
  | .wakeSignal cmd j => wakeRest units n cmd (j + 1) + 9
  | .waitCheck => 2
  | .waitEnter => 1
  | .blocked => 0
  | .closing => wakeRest units n .exit 0 + 1
  | .destroyW j => 2 * (n - j) + 1
  | .joinW j => 2 * (n - j)
  | .finished => 0

/-- Upper bound on the number of steps left before the coordinator is idle, blocked or finished. -/
def potential (units : Nat → Nat → Nat) (n : Nat) (s : St) : Nat :=
  (∑ i ∈ Finset.range n, wVal (s.w i)) + cVal units n s.coord

theorem sum_wVal_update {n i : Nat} (hi : i < n) (f g : Nat → Worker)
    (hfg : ∀ j, j ≠ i → g j = f j) :
    (∑ j ∈ Finset.range n, wVal (g j)) + wVal (f i) =
      (∑ j ∈ Finset.range n, wVal (f j)) + wVal (g i) := by
  have hmem : i ∈ Finset.range n := Finset.mem_range.2 hi
  rw [← Finset.add_sum_erase _ _ hmem, ← Finset.add_sum_erase (Finset.range n)
    (fun j => wVal (f j)) hmem]
  have : ∑ j ∈ (Finset.range n).erase i, wVal (g j) = ∑ j ∈ (Finset.range n).erase i, wVal (f j) :=
    Finset.sum_congr rfl fun j hj => by rw [hfg j (Finset.ne_of_mem_erase hj)]
  rw [this]
  omega

/-- A worker's own potential drops by at least four. -/
theorem wVal_step {units : Nat → Nat → Nat} {n i : Nat} {s s' : St} (h : Inv units n s)
    (hi : i < n) (e : workerStep units i s = some s') :
    wVal (s'.w i) + 4 ≤ wVal (s.w i) := by
  have hrun : (s.w i).pc = .runChk → ∀ p, (s.w i).st = .job p → 0 < (s.w i).rem := by
    intro hp p hj
    have hrw : ∀ q, Rest units i q (s.w i) ∨ Work units i q (s.w i) → 0 < (s.w i).rem := by
      rintro q (hr | ⟨_, _, _, _, _, ⟨hw, _⟩ | ⟨_, hw⟩⟩)
      · exact absurd hp (rest_atRest hr).2.1
      · exact hw
      · rw [hp] at hw; simp at hw
    have he : Exiting units i s.phase (s.w i) → 0 < (s.w i).rem := by
      rintro ⟨hx, _⟩
      rw [hj] at hx; simp at hx
    have hok := h.ok i hi
    unfold WOk at hok
    split at hok
    · exact hrw _ (Or.inl hok)
    · exact hrw _ (Or.inl hok)
    · have h3 := hok.2.2
      split at h3
      exacts [hrw _ h3, hrw _ (Or.inl h3)]
    · have h3 := hok.2.2
      split at h3
      exacts [hrw _ h3, hrw _ (Or.inl h3)]
    · have h3 := hok.2.2
      split at h3
      exacts [hrw _ h3, hrw _ (Or.inl h3)]
    · have h3 := hok.2.2
      split at h3
      exacts [hrw _ h3, hrw _ (Or.inl h3)]
    · split at hok
      exacts [he hok.1, hrw _ (Or.inl hok)]
    · split at hok
      exacts [he hok.1, hrw _ (Or.inl hok)]
    · split at hok
      exacts [he hok.1, hrw _ (Or.inl hok)]
    · split at hok
      exacts [he hok.1, hrw _ (Or.inl hok)]
    · exact hok.elim
    · exact hok.elim
    · exact hok.elim
    · exact hok.elim
    · exact hrw _ hok
    · exact hrw _ hok
    · exact hrw _ hok
    · exact he hok.1
    · exact he hok.1
    · exact he hok.1
  cases hpc : (s.w i).pc <;> (unfold workerStep at e; simp only [hpc] at e)
  · obtain rfl := Option.some.inj e
    by_cases h : (s.w i).st = .wait <;> simp [St.setW, wVal, pcVal, h, hpc] <;> omega
  · split at e
    · obtain rfl := Option.some.inj e
      simp [St.useW, St.setW, wVal, pcVal, hpc]; omega
    · simp at e
  · obtain rfl := Option.some.inj e
    by_cases h : (s.w i).st = .wait <;> simp [St.useW, St.setW, wVal, pcVal, h, hpc] <;> omega
  · simp at e
  · split at e
    · obtain rfl := Option.some.inj e
      simp [St.setW, wVal, pcVal, hpc]; omega
    · obtain rfl := Option.some.inj e
      simp [St.setW, wVal, pcVal, hpc]; omega
    · obtain rfl := Option.some.inj e
      rename_i p hj
      have := hrun hpc p hj
      simp [St.setW, wVal, pcVal, hpc]; omega
  · split at e
    · obtain rfl := Option.some.inj e
      simp [St.useW, St.setW, wVal, pcVal, hpc]; omega
    · simp at e
  · split at e <;> (obtain rfl := Option.some.inj e; simp [St.useW, St.setW, wVal, pcVal, hpc]; omega)
  · obtain rfl := Option.some.inj e
    simp [St.setW, wVal, pcVal, hpc]; omega
  · obtain rfl := Option.some.inj e
    by_cases h : s.pending = 0 <;> simp [St.setW, wVal, pcVal, h, hpc] <;> omega
  · split at e <;> (obtain rfl := Option.some.inj e; simp [St.setW, wVal, pcVal, hpc]; omega)
  · obtain rfl := Option.some.inj e
    simp [St.useW, St.setW, wVal, pcVal, hpc]; omega
  · simp at e
  · simp at e

theorem potential_worker {units : Nat → Nat → Nat} {n i : Nat} {s s' : St} (h : Inv units n s)
    (hi : i < n) (e : workerStep units i s = some s') :
    potential units n s' < potential units n s := by
  obtain ⟨hoth, _, hc⟩ := workerStep_frame e
  have h1 := sum_wVal_update hi s.w s'.w hoth
  have h2 := wVal_step h hi e
  have h3 : cVal units n s'.coord ≤ cVal units n s.coord + 2 := by
    rcases hc with hc | ⟨ha, hb⟩
    · rw [hc]; omega
    · rw [ha, hb]; simp [cVal]
  unfold potential
  omega

theorem wakeRest_succ {units : Nat → Nat → Nat} {n : Nat} {cmd : TState} {j : Nat} (hj : j < n) :
    wakeRest units n cmd j = wakeCost units cmd j + wakeRest units n cmd (j + 1) := by
  unfold wakeRest
  rw [Finset.sum_eq_sum_Ico_succ_bot hj]
  omega

theorem wakeCost_le (units : Nat → Nat → Nat) (cmd : TState) (j : Nat) :
    12 ≤ wakeCost units cmd j := by
  unfold wakeCost
  split <;> omega

theorem potential_coord {units : Nat → Nat → Nat} {n : Nat} {s s' : St} (h : Inv units n s)
    (e : coordStep units n s = some s') : potential units n s' < potential units n s := by
  have hidx := h.idx
  unfold coordStep at e
  split at e
  · simp at e
  · rename_i cmd i hc
    rw [hc] at hidx
    have hi : i < n := hidx
    simp only at e
    split at e
    · obtain rfl := Option.some.inj e
      have h1 := sum_wVal_update hi s.w (Function.update s.w i { s.w i with lock := some .coord })
        (fun j hj => Function.update_of_ne hj _ _)
      rw [Function.update_self] at h1
      simp only [wVal] at h1
      unfold potential
      rw [hc]
      simp only [St.setW, cVal, wVal]
      have := wakeRest_succ (units := units) (cmd := cmd) hi
      have := wakeCost_le units cmd i
      omega
    · simp at e
  · rename_i cmd i hc
    rw [hc] at hidx
    have hi : i < n := hidx
    simp only at e
    obtain rfl := Option.some.inj e
    unfold potential
    rw [hc]
    simp only [St.setW, cVal]
    have hr := wakeRest_succ (units := units) (cmd := cmd) hi
    cases cmd with
    | wait =>
      have := h.ok i hi
      rw [hc] at this
      exact this.elim
    | job p =>
      have h1 := sum_wVal_update hi s.w
        (Function.update s.w i { s.w i with st := .job p, rem := units p i })
        (fun j hj => Function.update_of_ne hj _ _)
      rw [Function.update_self] at h1
      simp only [wVal] at h1 ⊢
      simp only [wakeCost] at hr
      omega
    | exit =>
      have h1 := sum_wVal_update hi s.w
        (Function.update s.w i { s.w i with st := .exit, rem := (s.w i).rem })
        (fun j hj => Function.update_of_ne hj _ _)
      rw [Function.update_self] at h1
      simp only [wVal] at h1 ⊢
      simp only [wakeCost] at hr
      omega
  · rename_i cmd i hc
    rw [hc] at hidx
    have hi : i < n := hidx
    obtain rfl := Option.some.inj e
    have h1 := sum_wVal_update hi s.w (Function.update s.w i { s.w i with lock := none })
      (fun j hj => Function.update_of_ne hj _ _)
    rw [Function.update_self] at h1
    unfold potential
    rw [hc]
    simp only [St.setW, cVal, wVal] at h1 ⊢
    omega
  · rename_i cmd i hc
    rw [hc] at hidx
    have hi : i < n := hidx
    simp only at e
    obtain rfl := Option.some.inj e
    have h1 := sum_wVal_update hi s.w (Function.update s.w i (woken (s.w i)))
      (fun j hj => Function.update_of_ne hj _ _)
    rw [Function.update_self] at h1
    have h2 : wVal (woken (s.w i)) ≤ wVal (s.w i) + 8 := by
      by_cases hp : (s.w i).pc = .asleep <;> simp [woken, wVal, pcVal, hp]; omega
    unfold potential
    rw [hc]
    show (∑ j ∈ Finset.range n, wVal (Function.update s.w i (woken (s.w i)) j)) + _ < _
    have h3 : cVal units n (if i + 1 < n then CPc.wakeLock cmd (i + 1) else
        if cmd = .exit then .destroyW 0 else .waitCheck) ≤ wakeRest units n cmd (i + 1) := by
      split
      · exact le_refl _
      · unfold wakeRest
        split <;> simp only [cVal] <;> omega
    simp only [cVal] at h3 ⊢
    omega
  · rename_i hc
    obtain rfl := Option.some.inj e
    unfold potential
    rw [hc]
    split <;> simp [cVal]
  · rename_i hc
    obtain rfl := Option.some.inj e
    unfold potential
    rw [hc]
    simp [cVal]
  · simp at e
  · rename_i hc
    obtain rfl := Option.some.inj e
    unfold potential
    rw [hc]
    simp [cVal]
  · rename_i i hc
    rw [hc] at hidx
    have hi : i < n := hidx
    obtain rfl := Option.some.inj e
    have h1 := sum_wVal_update hi s.w (Function.update s.w i { s.w i with dead := true })
      (fun j hj => Function.update_of_ne hj _ _)
    rw [Function.update_self] at h1
    unfold potential
    rw [hc]
    simp only [St.setW, cVal, wVal] at h1 ⊢
    omega
  · rename_i i hc
    rw [hc] at hidx
    have hi : i < n := hidx
    split at e
    · obtain rfl := Option.some.inj e
      unfold potential
      rw [hc]
      split <;> simp only [cVal] <;> omega
    · simp at e
  · simp at e

theorem potential_exec {units : Nat → Nat → Nat} {n : Nat} (hn : 0 < n)
    (hu : ∀ p i, 0 < units p i) :
    ∀ (l : List Action) (s s' : St), Inv units n s → (∀ a ∈ l, a.inner = true) →
      exec units n s l = some s' → l.length + potential units n s' ≤ potential units n s := by
  intro l
  induction l with
  | nil => intro s s' _ _ e; obtain rfl := Option.some.inj e; simp
  | cons a l ih =>
    intro s s' h hl e
    unfold exec at e
    split at e
    · simp at e
    · rename_i s1 h1
      have := ih s1 s' (inv_step hn hu h h1) (fun b hb => hl b (List.mem_cons_of_mem _ hb)) e
      have hd : potential units n s1 < potential units n s := by
        have ha := hl a List.mem_cons_self
        cases a with
        | coord => exact potential_coord h h1
        | worker i =>
          simp only [step] at h1
          split at h1
          · exact potential_worker h (by assumption) h1
          · simp at h1
        | _ => simp [Action.inner] at ha
      rw [List.length_cons]
      omega

/-! ### Destroyed objects -/

theorem alive_worker {units : Nat → Nat → Nat} {n i : Nat} {s s' : St} (hi : i < n)
    (h : Inv units n s) (e : workerStep units i s = some s') (ha : alive s'.coord = true) :
    alive s.coord = true ∧ (s.misused = false → s'.misused = false) := by
  have hal : alive s.coord = true := by
    rcases (workerStep_frame e).2.2 with hc | ⟨h1, _⟩
    · rw [← hc]; exact ha
    · rw [h1]; rfl
  refine ⟨hal, fun hm => ?_⟩
  have hs : shutting s.coord = false ∧ s.coord ≠ .closing := by
    simpa [alive] using hal
  have hd : (s.w i).dead = false := by
    obtain ⟨q, hq | hq⟩ := wok_cases (h.ok i hi) hs.1
    · exact hq.2.1
    · exact hq.2.2.2.1
  cases hpc : (s.w i).pc <;> (unfold workerStep at e; simp only [hpc] at e)
  all_goals first
    | (obtain rfl := Option.some.inj e; simp [St.useW, St.setW, hm, hd]; done)
    | (split at e <;> first
        | (obtain rfl := Option.some.inj e; simp [St.useW, St.setW, hm, hd]; done)
        | (simp at e; done)
        | (exfalso; simp_all [shutting]; done))
    | (simp at e; done)

theorem misused_exec {units : Nat → Nat → Nat} {n : Nat} (hn : 0 < n)
    (hu : ∀ p i, 0 < units p i) :
    ∀ (l : List Action) (s s' : St), Inv units n s → (alive s.coord = true → s.misused = false) →
      exec units n s l = some s' → alive s'.coord = true → s'.misused = false := by
  intro l
  induction l with
  | nil => intro s s' _ hm e; obtain rfl := Option.some.inj e; exact hm
  | cons a l ih =>
    intro s s' h hm e
    unfold exec at e
    split at e
    · simp at e
    · rename_i s1 h1
      refine ih s1 s' (inv_step hn hu h h1) ?_ e
      intro ha
      cases a with
      | begin =>
        simp only [step] at h1
        split at h1
        · rename_i hc
          obtain rfl := Option.some.inj h1
          exact hm (by rw [hc]; rfl)
        · simp at h1
      | close =>
        simp only [step] at h1
        split at h1
        · rename_i hc
          obtain rfl := Option.some.inj h1
          exact hm (by rw [hc]; rfl)
        · simp at h1
      | spuriousCoord =>
        simp only [step] at h1
        split at h1
        · rename_i hc
          obtain rfl := Option.some.inj h1
          exact hm (by rw [hc]; rfl)
        · simp at h1
      | spuriousWorker i =>
        simp only [step] at h1
        split at h1
        · obtain rfl := Option.some.inj h1
          exact hm ha
        · simp at h1
      | worker i =>
        simp only [step] at h1
        split at h1
        · have := alive_worker (by assumption) h h1 ha
          exact this.2 (hm this.1)
        · simp at h1
      | coord =>
        have hcs : coordStep units n s = some s1 := h1
        have : s1.misused = s.misused ∧ (alive s1.coord = true → alive s.coord = true) := by
          unfold coordStep at hcs
          split at hcs
          · simp at hcs
          · rename_i cmd i hc
            simp only at hcs
            split at hcs
            · obtain rfl := Option.some.inj hcs
              refine ⟨rfl, ?_⟩
              rw [hc]; cases cmd <;> exact id
            · simp at hcs
          · rename_i cmd i hc
            obtain rfl := Option.some.inj hcs
            refine ⟨rfl, ?_⟩
            rw [hc]; cases cmd <;> exact id
          · rename_i cmd i hc
            obtain rfl := Option.some.inj hcs
            refine ⟨rfl, ?_⟩
            rw [hc]; cases cmd <;> exact id
          · rename_i cmd i hc
            obtain rfl := Option.some.inj hcs
            refine ⟨rfl, ?_⟩
            rw [hc]
            cases cmd with
            | wait => intro _; rfl
            | job p => intro _; rfl
            | exit => dsimp only; split <;> simp [alive, shutting]
          · rename_i hc
            obtain rfl := Option.some.inj hcs
            exact ⟨rfl, fun _ => by rw [hc]; rfl⟩
          · rename_i hc
            obtain rfl := Option.some.inj hcs
            exact ⟨rfl, fun _ => by rw [hc]; rfl⟩
          · simp at hcs
          · rename_i hc
            obtain rfl := Option.some.inj hcs
            refine ⟨rfl, ?_⟩
            rw [hc]; simp [alive, shutting]
          · rename_i i hc
            obtain rfl := Option.some.inj hcs
            refine ⟨rfl, ?_⟩
            rw [hc]; simp [alive, shutting]
          · rename_i i hc
            split at hcs
            · obtain rfl := Option.some.inj hcs
              refine ⟨rfl, ?_⟩
              rw [hc]; dsimp only; split <;> simp [alive, shutting]
            · simp at hcs
          · simp at hcs
        rw [this.1]
        exact hm (this.2 ha)

end Knor.Barrier
