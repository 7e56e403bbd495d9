import Verif.Basic
import Verif.Model.VMap

/-!
# Helpers of the hierarchical coordinator: a member of a cluster, cluster sizes, means of the partitions

`forgy_select`, `accumulate_cluster_counts` and the coordinator's `partition_mean`, virtual functions offered to
derived coordinators.  `cluster_assignments` is the list `asg`; reading it outside is undefined behaviour.
-/

namespace Knor.HierHelpers

open Knor Knor.VMap

/-- The forward walk: `fuel` is the number of values `cnt` can still take below `max_rid = nrow - 1`.
Models libman/hclust_coordinator.cpp:126-130. -/
def forward (asg : List Nat) (cid : Nat) : Nat → Nat → Res (Option Nat)
  | 0, _ => .ok none
  | fuel + 1, cnt =>
    match asg[cnt]? with
    | none => .error .ub
    | some c => if c = cid then .ok (some cnt) else forward asg cid fuel (cnt + 1)

/-- The backward walk from `cnt - 1` down.  The loop condition `--cnt < max_rid` holds for every smaller value, so the
walk goes on to index `-1` if it finds nothing.  Models libman/hclust_coordinator.cpp:132-136. -/
def backward (asg : List Nat) (cid : Nat) : Nat → Res Nat
  | 0 => .error .ub
  | cnt + 1 =>
    match asg[cnt]? with
    | none => .error .ub
    | some c => if c = cid then .ok cnt else backward asg cid cnt

/-- `forgy_select(cid)` when the generator yields `rand` (at most `nrow - 1`).  The `throw` at the end cannot be reached:
the backward walk only ends by returning.  Models libman/hclust_coordinator.cpp:115-140. -/
def forgySelect (asg : List Nat) (cid rand : Nat) : Res Nat :=
  match asg[rand]? with
  | none => .error .ub
  | some c =>
    if c = cid then .ok rand
    else
      match forward asg cid (asg.length - 1 - (rand + 1)) (rand + 1) with
      | .error e => .error e
      | .ok (some r) => .ok r
      | .ok none => backward asg cid rand

/-- The loop of `accumulate_cluster_counts`; the counts are 64-bit and cannot overflow.  Models libman/hclust_coordinator.cpp:315-317. -/
def countLoop : List Nat → List Nat → Res (List Nat)
  | [], cnt => .ok cnt
  | c :: l, cnt =>
    match cnt[c]? with
    | none => .error .ub
    | some v => countLoop l (cnt.set c (v + 1))

/-- `accumulate_cluster_counts`.  Models libman/hclust_coordinator.cpp:312-318. -/
def accumulate (maxNodes : Nat) (asg : List Nat) : Res (List Nat) := countLoop asg (List.replicate maxNodes 0)

/-- One entry of a thread's local clusters is added to the entry of the same id: `part_hcltrs[id]->peq(…)`.  An entry
is a pointer, `none` is the null pointer; calling a member function on it is undefined behaviour.
Models libman/hclust_coordinator.cpp:101. -/
def addPart {C : Type _} (peq : C → C → C) (m : VMap (Option C)) (e : Nat × C) : Res (VMap (Option C)) :=
  match m.read none e.1 with
  | (none, _) => .error .ub
  | (some c, m') => .ok (m'.put none e.1 (some (peq c e.2)))

/-- The loop over the entries of all threads.  Models libman/hclust_coordinator.cpp:94-103. -/
def addParts {C : Type _} (peq : C → C → C) : List (Nat × C) → VMap (Option C) → Res (VMap (Option C))
  | [], m => .ok m
  | e :: l, m =>
    match addPart peq m e with
    | .error e => .error e
    | .ok m' => addParts peq l m'

/-- The coordinator's `partition_mean`, given the entries of the threads' local clusters after the `MEAN` step.  The map
passed in is emptied first.  The final `finalize_all` of the entries is `fin`.
Models libman/hclust_coordinator.cpp:84-109. -/
def partitionMean {C : Type _} (peq : C → C → C) (fin : C → C) (maxNodes : Nat) (locals : List (Nat × C))
    (part : VMap (Option C)) : Res (VMap (Option C)) :=
  let part' := if part.size = 0 then part.setCapacity maxNodes else part.clear
  match addParts peq locals part' with
  | .error e => .error e
  | .ok m => .ok { m with data := m.data.map (Option.map fin) }

end Knor.HierHelpers
