import Verif.Model.Barrier

/-!
# What a phase barrier must guarantee
-/

namespace Knor.Barrier

/-- The parts `0, 1, …` of worker `i`'s job in phase `p`, in order. -/
def parts (units : Nat → Nat → Nat) (i p : Nat) : List (Nat × Nat) :=
  (List.range (units p i)).map fun u => (p, u)

/-- Everything worker `i` is asked to do in phases `1 … m`: every part of every phase once, phase by
phase. -/
def hist (units : Nat → Nat → Nat) (i m : Nat) : List (Nat × Nat) :=
  (List.range m).flatMap fun q => parts units i (q + 1)

/-- The worker is not running a job: it has returned to waiting, or is about to (everything that
is left is to reset its state and to report). -/
def AtRest (x : Worker) : Prop :=
  (x.st = .wait ∨ x.pc = .sleepSet) ∧
    x.pc ≠ .runChk ∧ x.pc ≠ .reqLock ∧ x.pc ≠ .reqChk ∧ x.pc ≠ .threw ∧ x.pc ≠ .exited

/-- Actions that do not rely on `pthread_cond_wait` returning for no reason. -/
def Action.genuine : Action → Bool
  | .spuriousWorker _ | .spuriousCoord => false
  | _ => true

/-- Nobody can take a step. -/
def Stuck (units : Nat → Nat → Nat) (n : Nat) (s : St) : Prop :=
  ∀ a : Action, a.genuine = true → step units n s a = none

/-- The lost wake-up: the coordinator is blocked although no thread is pending. -/
def LostWakeup (s : St) : Prop := s.coord = .blocked ∧ s.pending = 0

/-- The steps inside a phase: neither a new phase nor the destructor is started. -/
def Action.inner : Action → Bool
  | .coord | .worker _ => true
  | _ => false

/-- The coordinator is shutting down: it is telling the threads to exit, or destroying them. -/
def shutting : CPc → Bool
  | .wakeLock .exit _ | .wakeSet .exit _ | .wakeUnlock .exit _ | .wakeSignal .exit _
  | .destroyW _ | .joinW _ | .finished => true
  | _ => false

/-- The destructor has not started. -/
def alive (c : CPc) : Bool := !(shutting c) && decide (c ≠ .closing)

end Knor.Barrier
