import Verif.Model.Barrier
import Verif.Spec.Barrier
import Verif.Lemmas.Barrier

/-!
# C34, C35, C54: the wake / wait protocol
-/

namespace Knor.Barrier

/-! ## C34 -/

/-- **C34.**  For any number of workers, any sizes of their jobs, any number of phases and any
interleaving (spurious wake-ups included): whenever the coordinator has returned from
`wait4complete`, every worker has executed every part of every phase requested so far exactly once, in
order, and is at rest. -/
theorem C34_phase_complete_on_return {units : Nat → Nat → Nat} {n : Nat} {s : St} (hn : 0 < n)
    (hu : ∀ p i, 0 < units p i) (h : Reachable units n s) (hc : s.coord = .idle) :
    ∀ i, i < n → (s.w i).log = hist units i s.phase ∧ AtRest (s.w i) := by
  intro i hi
  have hinv := reachable_inv hn hu h
  have := hinv.ok i hi
  rw [hc] at this
  exact ⟨this.1, rest_atRest this⟩

/-- **C34.**  At every moment of every interleaving a worker has done all of every earlier phase and a
first part of the current one, or all of it: no worker lags behind, runs ahead, skips or repeats. -/
theorem C34_lockstep {units : Nat → Nat → Nat} {n : Nat} {s : St} (hn : 0 < n)
    (hu : ∀ p i, 0 < units p i) (h : Reachable units n s) :
    ∀ i, i < n → ∃ t, t ≤ units s.phase i ∧
      ((s.w i).log = hist units i s.phase ∨
        (0 < s.phase ∧ (s.w i).log =
          hist units i (s.phase - 1) ++ (List.range t).map fun u => (s.phase, u))) :=
  fun _ hi => log_between (reachable_inv hn hu h) hi

/-- **C34.**  No worker ever runs in an unknown state (which would throw out of the thread), and the
pending counter never wraps below zero. -/
theorem C34_no_exception_no_wrap {units : Nat → Nat → Nat} {n : Nat} {s : St} (hn : 0 < n)
    (hu : ∀ p i, 0 < units p i) (h : Reachable units n s) :
    (∀ i, i < n → (s.w i).pc ≠ .threw) ∧ (shutting s.coord = false → s.pending ≤ n) :=
  ⟨fun _ hi => never_threw (reachable_inv hn hu h) hi, pending_le (reachable_inv hn hu h)⟩

/-- **C34.**  When the destructor has returned every thread has exited, having executed every
requested phase. -/
theorem C34_all_joined {units : Nat → Nat → Nat} {n : Nat} {s : St} (hn : 0 < n)
    (hu : ∀ p i, 0 < units p i) (h : Reachable units n s) (hc : s.coord = .finished) :
    ∀ i, i < n → (s.w i).pc = .exited ∧ (s.w i).log = hist units i s.phase := by
  intro i hi
  have hinv := reachable_inv hn hu h
  have := hinv.ok i hi
  rw [hc] at this
  exact ⟨this.2, this.1.2.1⟩

/-- What can be observed of a state with two workers. -/
structure Obs2 where
  coord : CPc
  pending : Nat
  phase : Nat
  misused : Bool
  pc0 : WPc
  pc1 : WPc
  log0 : List (Nat × Nat)
  log1 : List (Nat × Nat)
  deriving DecidableEq, Repr

def obs2 (s : St) : Obs2 :=
  ⟨s.coord, s.pending, s.phase, s.misused, (s.w 0).pc, (s.w 1).pc, (s.w 0).log, (s.w 1).log⟩

/-- Worker 0 has two parts per phase, worker 1 has one. -/
def units21 (_p i : Nat) : Nat := if i = 0 then 2 else 1

/-- One full phase with the coordinator racing ahead, then the next phase begun while worker 0 has
not even gone back to waiting. -/
def demo : List Action :=
  [.begin] ++ List.replicate 8 .coord ++ List.replicate 8 (.worker 0) ++ List.replicate 7 (.worker 1) ++
    [.coord, .begin]

-- the hypotheses are met by a run of two phases with two workers
example : (exec units21 2 init demo).map obs2 =
    some ⟨.wakeLock (.job 2) 0, 2, 2, false, .sleepSet, .sleepUnlock, [(1, 0), (1, 1)], [(1, 0)]⟩ := by
  decide +kernel

example : (exec units21 2 init (demo.take 25)).map obs2 =
    some ⟨.idle, 0, 1, false, .sleepSet, .sleepUnlock, [(1, 0), (1, 1)], [(1, 0)]⟩ := by
  decide +kernel

example : hist units21 0 1 = [(1, 0), (1, 1)] := by decide

/-! ## C35 -/

/-- The interleaving that loses the wake-up: the coordinator has read `pending_threads != 0`; before it
blocks, the worker finishes, finds nobody waiting to signal, and goes to sleep. -/
def losing : List Action :=
  [.begin, .coord, .coord, .coord, .coord, .coord] ++ List.replicate 11 (.worker 0) ++ [.coord]

/-- **C35 is violated.**  With a single worker and a single one-part job there is an interleaving after
which the coordinator is blocked although the work is done, and no thread can take any step unless
`pthread_cond_wait` returns spuriously. -/
theorem C35_violated :
    ∃ s, Reachable (fun _ _ => 1) 1 s ∧ LostWakeup s ∧ (s.w 0).log = [(1, 0)] ∧
      Stuck (fun _ _ => 1) 1 s := by
  have hex : ((exec (fun _ _ => 1) 1 init losing).map obs2) =
      some ⟨.blocked, 0, 1, false, .asleep, .top, [(1, 0)], []⟩ := by decide +kernel
  cases hs : exec (fun _ _ => 1) 1 init losing with
  | none => rw [hs] at hex; simp at hex
  | some s =>
    rw [hs] at hex
    simp only [Option.map_some, Option.some.injEq, obs2, Obs2.mk.injEq] at hex
    obtain ⟨h1, h2, _, _, h5, _, h7, _⟩ := hex
    refine ⟨s, ⟨losing, hs⟩, ⟨h1, h2⟩, h7, ?_⟩
    intro a ha
    cases a with
    | begin => simp [step, h1]
    | close => simp [step, h1]
    | coord => simp [step, coordStep, h1]
    | worker i =>
      simp only [step]
      split
      · have : i = 0 := by omega
        subst this
        simp [workerStep, h5]
      · rfl
    | spuriousWorker i => simp [Action.genuine] at ha
    | spuriousCoord => simp [Action.genuine] at ha

/-- **C35, proved part.**  The lost wake-up is the only way to hang: in every interleaving without
spurious wake-ups the number of steps between two calls of the coordinator's user is bounded, and when
nobody can go on the coordinator has returned (`idle`), is destroyed (`finished`), or is blocked
with no thread pending.  Missing: that the last case does not occur — it does, see `C35_violated`. -/
theorem C35_only_lost_wakeup_hangs_partial {units : Nat → Nat → Nat} {n : Nat} {s : St} (hn : 0 < n)
    (hu : ∀ p i, 0 < units p i) (h : Reachable units n s) :
    ∃ bound, ∀ l s', (∀ a ∈ l, a.inner = true) → exec units n s l = some s' →
      l.length ≤ bound ∧
      ((∀ a : Action, a.inner = true → step units n s' a = none) →
        s'.coord = .idle ∨ s'.coord = .finished ∨ LostWakeup s') := by
  have hinv := reachable_inv hn hu h
  refine ⟨potential units n s, fun l s' hl e => ⟨?_, ?_⟩⟩
  · have := potential_exec hn hu l s s' hinv hl e
    omega
  · exact progress (inv_exec hn hu l s s' hinv e)

/-- **C35, proved part.**  No deadlock other than the lost wake-up. -/
theorem C35_no_other_deadlock_partial {units : Nat → Nat → Nat} {n : Nat} {s : St} (hn : 0 < n)
    (hu : ∀ p i, 0 < units p i) (h : Reachable units n s) (hst : Stuck units n s) :
    s.coord = .finished ∨ LostWakeup s := by
  have hgen : ∀ a : Action, a.inner = true → a.genuine = true := by
    intro a ha
    cases a <;> simp [Action.inner, Action.genuine] at ha ⊢
  rcases progress (reachable_inv hn hu h) (fun a ha => hst a (hgen a ha)) with h1 | h1
  · have := hst .begin rfl
    simp [step, h1] at this
  · exact h1

-- the interleaving of `losing` without its race ends in `idle`
example : (exec (fun _ _ => 1) 1 init
    ([.begin, .coord, .coord, .coord, .coord, .coord, .coord] ++ List.replicate 11 (.worker 0) ++
      [.coord])).map obs2 =
    some ⟨.idle, 0, 1, false, .asleep, .top, [(1, 0)], []⟩ := by decide +kernel

-- a state in which only `finished` is left
example : (exec (fun _ _ => 1) 1 init
    ([.close] ++ List.replicate 6 .coord ++ [.worker 0, .worker 0, .coord])).map obs2 =
    some ⟨.finished, 1, 0, false, .exited, .top, [], []⟩ := by decide +kernel

/-! ## C54 -/

/-- **C54 is violated** at the coordinator's condition variable: the destructor destroys it while a
worker that has reported completion is about to signal it. -/
theorem C54_violated_parent_cond :
    ∃ s, Reachable (fun _ _ => 1) 1 s ∧ s.coord = .closing ∧ s.misused = true := by
  have hex : (exec (fun _ _ => 1) 1 init ([.begin, .coord, .coord, .coord, .coord] ++
      List.replicate 6 (.worker 0) ++ [.coord, .close, .worker 0])).map obs2 =
      some ⟨.closing, 0, 1, true, .sleepUnlock, .top, [(1, 0)], []⟩ := by decide +kernel
  cases hs : exec (fun _ _ => 1) 1 init ([.begin, .coord, .coord, .coord, .coord] ++
      List.replicate 6 (.worker 0) ++ [.coord, .close, .worker 0]) with
  | none => rw [hs] at hex; simp at hex
  | some s =>
    rw [hs] at hex
    simp only [Option.map_some, Option.some.injEq, obs2, Obs2.mk.injEq] at hex
    exact ⟨s, ⟨_, hs⟩, hex.1, hex.2.2.2.1⟩

/-- **C54 is violated** at a thread's own mutex: the thread object's destructor destroys it before it
joins the thread, which may still have to acquire it on its way out of `wait()`. -/
theorem C54_violated_thread_mutex :
    ∃ s, Reachable (fun _ _ => 1) 1 s ∧ s.coord = .joinW 0 ∧ s.misused = true := by
  have hex : (exec (fun _ _ => 1) 1 init ([.worker 0, .worker 0, .worker 0, .close] ++
      List.replicate 6 .coord ++ [.worker 0])).map obs2 =
      some ⟨.joinW 0, 1, 0, true, .waitChk, .top, [], []⟩ := by decide +kernel
  cases hs : exec (fun _ _ => 1) 1 init ([.worker 0, .worker 0, .worker 0, .close] ++
      List.replicate 6 .coord ++ [.worker 0]) with
  | none => rw [hs] at hex; simp at hex
  | some s =>
    rw [hs] at hex
    simp only [Option.map_some, Option.some.injEq, obs2, Obs2.mk.injEq] at hex
    exact ⟨s, ⟨_, hs⟩, hex.1, hex.2.2.2.1⟩

/-- **C54, proved part.**  As long as the coordinator's destructor has not begun, no worker has used a
destroyed object, in any interleaving.  Missing: the destructor itself, where the property fails. -/
theorem C54_before_destructor_partial {units : Nat → Nat → Nat} {n : Nat} {s : St} (hn : 0 < n)
    (hu : ∀ p i, 0 < units p i) (h : Reachable units n s) (ha : alive s.coord = true) :
    s.misused = false := by
  obtain ⟨l, e⟩ := h
  exact misused_exec hn hu l init s (init_inv hn) (fun _ => rfl) e ha

example : alive (.wakeLock (.job 2) 0) = true := by decide

end Knor.Barrier
