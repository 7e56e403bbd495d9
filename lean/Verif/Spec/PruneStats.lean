import Mathlib.Data.Fintype.BigOperators
import Verif.Model.PruneStats

/-! # Specification: what the statistics should show after a history of calls -/

namespace Knor.Stats

open Knor

/-- The calls that change a `prune_stats` object. -/
inductive PCall where
  | lemma1 (v : Nat)
  | r3a
  | r3b
  | r3c
  | r4
  | merge (other : PruneStats)
  | finalize

/-- The reasons a distance computation was skipped. -/
inductive Reason where
  | lemma1 | r3a | r3b | r3c | r4
  deriving DecidableEq, Repr

/-- All reasons, in the order `get_stats` lists them. -/
def reasons : List Reason := [.lemma1, .r3a, .r3b, .r3c, .r4]

/-- How many skipped computations a call reports for each reason. -/
def amount : PCall → Reason → Nat
  | .lemma1 v, .lemma1 => v
  | .r3a, .r3a => 1
  | .r3b, .r3b => 1
  | .r3c, .r3c => 1
  | .r4, .r4 => 1
  | .merge o, .lemma1 => o.lemma1
  | .merge o, .r3a => o.c3a
  | .merge o, .r3b => o.c3b
  | .merge o, .r3c => o.c3c
  | .merge o, .r4 => o.c4
  | _, _ => 0

/-- Reported by a list of calls for one reason. -/
def reported (l : List PCall) (r : Reason) : Nat := (l.map fun c => amount c r).sum

/-- Reported by a list of calls for all reasons together. -/
def reportedAll (l : List PCall) : Nat := (reasons.map (reported l)).sum

/-- The object makes a call. -/
def doPCall (s : PruneStats) : PCall → Res PruneStats
  | .lemma1 v => .ok (ppLemma1 s v)
  | .r3a => .ok (pp3a s)
  | .r3b => .ok (pp3b s)
  | .r3c => .ok (pp3c s)
  | .r4 => .ok (pp4 s)
  | .merge o => .ok (plusEq s o)
  | .finalize => finalize s

/-- The object makes a list of calls. -/
def doPCalls (s : PruneStats) : List PCall → Res PruneStats
  | [] => .ok s
  | c :: l =>
    match doPCall s c with
    | .error e => .error e
    | .ok s' => doPCalls s' l

/-- A history by iterations: the reports of each finished iteration, every one followed by `finalize`, and the reports
made since. -/
def history (done : List (List PCall)) (cur : List PCall) : List PCall :=
  done.flatMap (fun it => it ++ [.finalize]) ++ cur

/-- Reports only: no `finalize`. -/
def Reports (l : List PCall) : Prop := ∀ c ∈ l, c ≠ .finalize

/-- The value of a counter of the current iteration. -/
def PruneStats.get (s : PruneStats) : Reason → Nat
  | .lemma1 => s.lemma1
  | .r3a => s.c3a
  | .r3b => s.c3b
  | .r3c => s.c3c
  | .r4 => s.c4

/-- `a` as a percentage of `b`. -/
def pct {R : Type _} [Field R] (a b : Nat) : R := (a : R) / (b : R) * 100

/-- The calls of `active_counter` by iterations: the rows of each are reported in some order, and `init_iter` is
called between two iterations. -/
def reportRows (s : Active) : List (Nat × Bool) → Res Active
  | [] => .ok s
  | (r, b) :: l =>
    match isActive s r b with
    | .error e => .error e
    | .ok s' => reportRows s' l

/-- Several iterations; the object starts with the first one open. -/
def reportIters (s : Active) : List (List (Nat × Bool)) → Res Active
  | [] => .ok s
  | [it] => reportRows s it
  | it :: it' :: l =>
    match reportRows s it with
    | .error e => .error e
    | .ok s' => reportIters (initIter s') (it' :: l)

/-- The calls when iteration `i`, `i + 1`, … reports the value `v i r` of every row `r`, the rows in the given
orders. -/
def itersOf (v : Nat → Nat → Bool) : Nat → List (List Nat) → List (List (Nat × Bool))
  | _, [] => []
  | i, o :: os => (o.map fun r => (r, v i r)) :: itersOf v (i + 1) os

/-- The flags a row should have: active in the iteration and in the one before (never in the first). -/
def bothActive (v : Nat → Nat → Bool) (row iters : Nat) : List Bool :=
  (List.range iters).map fun i => v i row && (decide (0 < i) && v (i - 1) row)

/-- One line of output. -/
def line (head : Nat) (flags : List Bool) : String :=
  toString head ++ ", " ++ ", ".intercalate (flags.map fun b => if b then "1" else "0") ++ "\n"

/-- The calls of `activation_counter` by iterations: the ids of the threads that reported, in the order of the
reports; `complete` ends each. -/
def actReports (s : Activation) : List Nat → Res Activation
  | [] => .ok s
  | t :: l =>
    match actActive s t with
    | .error e => .error e
    | .ok s' => actReports s' l

/-- Several iterations of `activation_counter`. -/
def actIters (s : Activation) : List (List Nat) → Res Activation
  | [] => .ok s
  | it :: l =>
    match actReports s it with
    | .error e => .error e
    | .ok s' => actIters (actComplete s') l

end Knor.Stats
