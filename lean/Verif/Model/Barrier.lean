import Mathlib.Logic.Function.Basic
import Verif.Basic

/-!
# The wake / wait protocol between the coordinator and its worker threads

A transition system: the coordinator and every worker have a program counter, and any of them may
take the next step.  One step is one access to shared data (or one mutex / condition variable
operation), under sequential consistency.

* Every worker has its own mutex and condition variable; the coordinator's mutex is only ever locked
  by the coordinator itself (libman/coordinator.cpp:58,62), so it is not represented.
* `pthread_cond_wait` releases the mutex and blocks in one step; it may also return spuriously.
* A worker's job in a phase consists of `units p i ≥ 1` parts: one for plain threads
  (libman/kmeans_thread.cpp:44-65), one per task of the queue for task threads
  (libman/kmeans_task_thread.cpp:73-102 with libman/task_thread.cpp:63-94; C03 gives the tasks).
-/

namespace Knor.Barrier

open Knor

/-- `thread_state_t`: `WAIT`, a request to work (numbered by phase), or `EXIT`.
Models libkcommon/thread_state.hpp:24-36. -/
inductive TState where
  | wait
  | job (p : Nat)
  | exit
  deriving DecidableEq, Repr

/-- Who holds a worker's mutex.  Models the `mutex` of libman/thread.hpp:88-100. -/
inductive Owner where
  | worker
  | coord
  deriving DecidableEq, Repr

/-- Where a worker is.  Models libman/thread.hpp:62-84 (`top`, `runChk`, `exited`),
libman/thread.cpp:49-61 (`waitLock`, `waitChk`, `asleep`), libman/thread.cpp:34-47 and
libman/task_thread.cpp:63-122 (`reqLock` … `sleepUnlock`). -/
inductive WPc where
  /-- before `if (t->get_state() == WAIT)` -/
  | top
  /-- in `wait()`, before the mutex is acquired (also when `pthread_cond_wait` reacquires it) -/
  | waitLock
  /-- in `wait()`, before `while (state == WAIT)`, holding the mutex -/
  | waitChk
  /-- blocked in `pthread_cond_wait(&cond, &mutex)` -/
  | asleep
  /-- before `if (t->get_state() == EXIT)` and `run()` -/
  | runChk
  /-- work done, before the mutex is acquired in `sleep()` / `request_task()` -/
  | reqLock
  /-- holding the mutex: next task, or `(*parent_pending_threads)--` -/
  | reqChk
  /-- before `set_thread_state(WAIT)` -/
  | sleepSet
  /-- before `if (*parent_pending_threads == 0)` -/
  | sleepTest
  /-- before `pthread_cond_signal(parent_cond)` -/
  | sleepSignal
  /-- before `pthread_mutex_unlock(&mutex)` -/
  | sleepUnlock
  /-- after `pthread_exit` -/
  | exited
  /-- `run()` called in state `WAIT`: `thread_exception("Unknown thread state")` -/
  | threw
  deriving DecidableEq, Repr

/-- A worker.  `log` records the parts of jobs it has done, as (phase, part); `dead` says that its
mutex and condition variable have been destroyed.  Models libman/thread.hpp:88-118. -/
structure Worker where
  dead : Bool
  pc : WPc
  st : TState
  lock : Option Owner
  rem : Nat
  log : List (Nat × Nat)

/-- Where the coordinator is.  Models libman/coordinator.cpp:82-86 with libman/thread.cpp:63-74
(`wake…`, for thread `i` and new state `cmd`), libman/coordinator.cpp:57-63 (`waitCheck`, `waitEnter`,
`blocked`) and libman/coordinator.cpp:162-171 with libman/thread.cpp:87-94 and 156-170 (`closing`,
`destroyW`, `joinW`, `finished`). -/
inductive CPc where
  /-- between phases: just constructed, or returned from `wait4complete` -/
  | idle
  | wakeLock (cmd : TState) (i : Nat)
  | wakeSet (cmd : TState) (i : Nat)
  | wakeUnlock (cmd : TState) (i : Nat)
  | wakeSignal (cmd : TState) (i : Nat)
  /-- before `pending_threads != 0` -/
  | waitCheck
  /-- saw pending threads, before `pthread_cond_wait` -/
  | waitEnter
  /-- blocked in `pthread_cond_wait` -/
  | blocked
  /-- in the destructor, after `pthread_cond_destroy`, before `destroy_threads()` -/
  | closing
  /-- in thread `i`'s destructor, before its condition variable and mutex are destroyed -/
  | destroyW (i : Nat)
  /-- waiting in `pthread_join` for thread `i` -/
  | joinW (i : Nat)
  | finished
  deriving DecidableEq, Repr

/-- Global state.  `phase` counts the `wake4run` calls made for work; `misused` records that a worker
used a destroyed mutex or condition variable.
Models `pending_threads`, `mutex` and `cond` of libman/coordinator.hpp:53-63. -/
structure St where
  pending : Nat
  coord : CPc
  phase : Nat
  misused : Bool
  w : Nat → Worker

/-- State after the coordinator's constructor has started all threads in state `WAIT`.
Models libman/coordinator.cpp:30-55 and libman/kmeans_coordinator.cpp:51-64. -/
def init : St :=
  { pending := 0, coord := .idle, phase := 0, misused := false
    w := fun _ => { dead := false, pc := .top, st := .wait, lock := none, rem := 0, log := [] } }

/-- Who takes the next step.
Models the threads started in libman/thread.hpp:62-84 and the coordinator that started them. -/
inductive Action where
  /-- the coordinator calls `wake4run(…)` for a new phase -/
  | begin
  /-- the coordinator is destroyed -/
  | close
  | coord
  | worker (i : Nat)
  /-- `pthread_cond_wait` of a worker returns without a signal -/
  | spuriousWorker (i : Nat)
  /-- `pthread_cond_wait` of the coordinator returns without a signal -/
  | spuriousCoord
  deriving DecidableEq, Repr

/-- Replace worker `i`.  Models the assignments to a worker in libman/thread.cpp:34-74. -/
def St.setW (s : St) (i : Nat) (x : Worker) : St := { s with w := Function.update s.w i x }

/-- Worker `i` does something with its mutex and goes on as `x`.
Models the pthread calls of libman/thread.cpp:34-61 and libman/task_thread.cpp:63-122. -/
def St.useW (s : St) (i : Nat) (x : Worker) : St :=
  { s.setW i x with misused := s.misused || x.dead }

/-- `(*parent_pending_threads)--` on a `std::atomic<unsigned>`.  Models libman/thread.cpp:39. -/
def decr (p : Nat) : Nat := if p = 0 then 4294967295 else p - 1

/-- One step of worker `i`.  Models libman/thread.hpp:62-84, libman/thread.cpp:34-61,
libman/task_thread.cpp:63-122 and libman/kmeans_thread.cpp:44-65. -/
def workerStep (units : Nat → Nat → Nat) (i : Nat) (s : St) : Option St :=
  let x := s.w i
  match x.pc with
  | .top => some (s.setW i { x with pc := if x.st = .wait then .waitLock else .runChk })
  | .waitLock =>
    if x.lock = none then some (s.useW i { x with pc := .waitChk, lock := some .worker }) else none
  | .waitChk =>
    some (s.useW i { x with pc := if x.st = .wait then .asleep else .runChk, lock := none })
  | .asleep => none
  | .runChk =>
    match x.st with
    | .exit => some (s.setW i { x with pc := .exited })
    | .wait => some (s.setW i { x with pc := .threw })
    | .job p => some (s.setW i
        { x with pc := .reqLock, rem := x.rem - 1, log := x.log ++ [(p, units p i - x.rem)] })
  | .reqLock =>
    if x.lock = none then some (s.useW i { x with pc := .reqChk, lock := some .worker }) else none
  | .reqChk =>
    if 0 < x.rem then some (s.useW i { x with pc := .top, lock := none })
    else some { s.setW i { x with pc := .sleepSet } with pending := decr s.pending }
  | .sleepSet => some (s.setW i { x with pc := .sleepTest, st := .wait })
  | .sleepTest =>
    some (s.setW i { x with pc := if s.pending = 0 then .sleepSignal else .sleepUnlock })
  | .sleepSignal =>
    let s' := s.setW i { x with pc := .sleepUnlock }
    match s.coord with
    | .blocked => some { s' with coord := .waitCheck }
    | .closing | .wakeLock .exit _ | .wakeSet .exit _ | .wakeUnlock .exit _ | .wakeSignal .exit _
    | .destroyW _ | .joinW _ | .finished => some { s' with misused := true }
    | _ => some s'
  | .sleepUnlock => some (s.useW i { x with pc := .top, lock := none })
  | .exited => none
  | .threw => none

/-- One step of the coordinator, with `n` worker threads.
Models libman/coordinator.cpp:57-63, 82-90, 162-171 and libman/thread.cpp:63-74, 87-94. -/
def coordStep (units : Nat → Nat → Nat) (n : Nat) (s : St) : Option St :=
  match s.coord with
  | .idle => none
  | .wakeLock cmd i =>
    let x := s.w i
    if x.lock = none then
      some { s.setW i { x with lock := some .coord } with coord := .wakeSet cmd i }
    else none
  | .wakeSet cmd i =>
    let x := s.w i
    let r := match cmd with
      | .job p => units p i
      | _ => x.rem
    some { s.setW i { x with st := cmd, rem := r } with coord := .wakeUnlock cmd i }
  | .wakeUnlock cmd i =>
    some { s.setW i { s.w i with lock := none } with coord := .wakeSignal cmd i }
  | .wakeSignal cmd i =>
    let x := s.w i
    let s' := s.setW i { x with pc := if x.pc = .asleep then .waitLock else x.pc }
    some { s' with coord :=
      if i + 1 < n then .wakeLock cmd (i + 1) else if cmd = .exit then .destroyW 0 else .waitCheck }
  | .waitCheck => some { s with coord := if s.pending = 0 then .idle else .waitEnter }
  | .waitEnter => some { s with coord := .blocked }
  | .blocked => none
  | .closing => some { s with pending := n, coord := .wakeLock .exit 0 }
  | .destroyW i => some { s.setW i { s.w i with dead := true } with coord := .joinW i }
  | .joinW i =>
    if (s.w i).pc = .exited then
      some { s with coord := if i + 1 < n then .destroyW (i + 1) else .finished }
    else none
  | .finished => none

/-- One step of the system with `n` workers.
Models a step of libman/thread.cpp:34-94 or of libman/coordinator.cpp:57-90 and 162-171. -/
def step (units : Nat → Nat → Nat) (n : Nat) (s : St) : Action → Option St
  | .begin =>
    if s.coord = .idle then
      some { s with pending := n, phase := s.phase + 1, coord := .wakeLock (.job (s.phase + 1)) 0 }
    else none
  | .close => if s.coord = .idle then some { s with coord := .closing } else none
  | .coord => coordStep units n s
  | .worker i => if i < n then workerStep units i s else none
  | .spuriousWorker i =>
    if i < n ∧ (s.w i).pc = .asleep then some (s.setW i { s.w i with pc := .waitLock }) else none
  | .spuriousCoord => if s.coord = .blocked then some { s with coord := .waitCheck } else none

/-- Run a list of actions.  Models an interleaving of libman/thread.cpp:34-94 and libman/coordinator.cpp:57-90. -/
def exec (units : Nat → Nat → Nat) (n : Nat) : St → List Action → Option St
  | s, [] => some s
  | s, a :: l =>
    match step units n s a with
    | none => none
    | some s' => exec units n s' l

/-- States the system can be in after any number of steps, in any interleaving.
Models the interleavings of libman/thread.cpp:34-94 and libman/coordinator.cpp:57-90. -/
def Reachable (units : Nat → Nat → Nat) (n : Nat) (s : St) : Prop :=
  ∃ l, exec units n init l = some s

end Knor.Barrier
