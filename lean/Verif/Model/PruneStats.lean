import Mathlib.Algebra.Field.Basic
import Verif.Basic

/-!
# Statistics of a run (`prune_stats`, `activation_counter`, `active_counter`)

Models libkcommon/prune_stats.cpp and libkcommon/prune_stats.hpp.  Counters are `size_t` and wrap around.  What is
printed on the console is not modelled.
-/

namespace Knor.Stats

open Knor

/-- Members of `prune_stats`: the counts of the current iteration, the totals, the number of iterations and the size
of the problem.  Models libkcommon/prune_stats.hpp:29-37. -/
structure PruneStats where
  lemma1 : Nat
  c3a : Nat
  c3b : Nat
  c3c : Nat
  c4 : Nat
  totLemma1 : Nat
  tot3a : Nat
  tot3b : Nat
  tot3c : Nat
  tot4 : Nat
  iter : Nat
  nrow : Nat
  nclust : Nat
  deriving DecidableEq, Repr

/-- `create`.  Models libkcommon/prune_stats.hpp:39-53. -/
def create (nrow nclust : Nat) : PruneStats :=
  { lemma1 := 0, c3a := 0, c3b := 0, c3c := 0, c4 := 0, totLemma1 := 0, tot3a := 0, tot3b := 0, tot3c := 0, tot4 := 0
    iter := 0, nrow := nrow, nclust := nclust }

/-- `pp_lemma1`.  Models libkcommon/prune_stats.cpp:27. -/
def ppLemma1 (s : PruneStats) (var : Nat) : PruneStats := { s with lemma1 := u64 (s.lemma1 + var) }

/-- `pp_3a`.  Models libkcommon/prune_stats.cpp:28. -/
def pp3a (s : PruneStats) : PruneStats := { s with c3a := u64 (s.c3a + 1) }

/-- `pp_3b`.  Models libkcommon/prune_stats.cpp:29. -/
def pp3b (s : PruneStats) : PruneStats := { s with c3b := u64 (s.c3b + 1) }

/-- `pp_3c`.  Models libkcommon/prune_stats.cpp:30. -/
def pp3c (s : PruneStats) : PruneStats := { s with c3c := u64 (s.c3c + 1) }

/-- `pp_4`.  Models libkcommon/prune_stats.cpp:31. -/
def pp4 (s : PruneStats) : PruneStats := { s with c4 := u64 (s.c4 + 1) }

/-- `operator+=`: the counts of the current iteration of the other object are added.
Models libkcommon/prune_stats.cpp:39-46. -/
def plusEq (s other : PruneStats) : PruneStats :=
  { s with lemma1 := u64 (s.lemma1 + other.lemma1), c3a := u64 (s.c3a + other.c3a), c3b := u64 (s.c3b + other.c3b)
           c3c := u64 (s.c3c + other.c3c), c4 := u64 (s.c4 + other.c4) }

/-- `finalize`, without the console output.  Models libkcommon/prune_stats.cpp:48-75. -/
def finalize (s : PruneStats) : Res PruneStats :=
  if u64 (s.lemma1 + s.c3a + s.c3b + s.c3c + s.c4) ≤ u64 (s.nrow * s.nclust) then
    .ok { s with iter := u64 (s.iter + 1), totLemma1 := u64 (s.totLemma1 + s.lemma1), tot3a := u64 (s.tot3a + s.c3a)
                 tot3b := u64 (s.tot3b + s.c3b), tot3c := u64 (s.tot3c + s.c3c), tot4 := u64 (s.tot4 + s.c4)
                 lemma1 := 0, c3a := 0, c3b := 0, c3c := 0, c4 := 0 }
  else .error .assertFail

/-- One percentage: `(tot / (double) denom) * 100`.  A zero denominator gives NaN or infinity, here `none`.
Models libkcommon/prune_stats.cpp:78-85. -/
def percent {R : Type _} [Field R] (tot denom : Nat) : Option R :=
  if denom = 0 then none else some ((tot : R) / (denom : R) * 100)

/-- `get_stats`: the five percentages and that of the sum, in the order of the returned vector.
Models libkcommon/prune_stats.cpp:77-104. -/
def getStats {R : Type _} [Field R] (s : PruneStats) : List (Option R) :=
  let denom := u64 (s.nrow * s.iter * s.nclust)
  [percent s.totLemma1 denom, percent s.tot3a denom, percent s.tot3b denom, percent s.tot3c denom,
   percent s.tot4 denom, percent (u64 (s.tot3b + s.tot3a + s.tot3c + s.tot4 + s.totLemma1)) denom]

/-- Members of `activation_counter`.  Models libkcommon/prune_stats.hpp:71-74. -/
structure Activation where
  agg : List Nat
  cur : List Nat
  deriving DecidableEq, Repr

/-- `activation_counter::create`.  Models libkcommon/prune_stats.hpp:76-84. -/
def actCreate (nthread : Nat) : Activation := { agg := [], cur := List.replicate nthread 0 }

/-- `activation_counter::active`: an id outside the vector is undefined behaviour.
Models libkcommon/prune_stats.cpp:107-109. -/
def actActive (s : Activation) (thd : Nat) : Res Activation :=
  match s.cur[thd]? with
  | none => .error .ub
  | some v => .ok { s with cur := s.cur.set thd (u64 (v + 1)) }

/-- `activation_counter::complete`.  Models libkcommon/prune_stats.cpp:111-119. -/
def actComplete (s : Activation) : Activation :=
  { agg := s.agg ++ [s.cur.foldl (fun tot v => u64 (tot + v)) 0], cur := List.replicate s.cur.length 0 }

/-- Members of `active_counter`.  Models libkcommon/prune_stats.hpp:91-96. -/
structure Active where
  prev : List Bool
  active : List (List Bool)
  nrow : Nat
  deriving DecidableEq, Repr

/-- `init_iter`.  Models libkcommon/prune_stats.cpp:126-130. -/
def initIter (s : Active) : Active := { s with active := s.active ++ [List.replicate s.nrow false] }

/-- `active_counter::create`.  Models libkcommon/prune_stats.hpp:98-102 and libkcommon/prune_stats.hpp:128-130. -/
def activeCreate (nrow : Nat) : Active :=
  initIter { prev := List.replicate nrow false, active := [], nrow := nrow }

/-- `is_active`: the last iteration's flag of the row is set if the row is active now and was when last reported.
Models libkcommon/prune_stats.cpp:132-146 (the first `if` there has an empty body) and
libkcommon/prune_stats.hpp:105-107. -/
def isActive (s : Active) (row : Nat) (val : Bool) : Res Active :=
  match s.prev[row]?, s.active.getLast? with
  | some was, some last =>
    if row < last.length then
      .ok { s with active := s.active.dropLast ++ [last.set row (val && was)], prev := s.prev.set row val }
    else .error .ub
  | _, _ => .error .ub

/-- `sample`: the flags of a row, iteration by iteration.  Models libkcommon/prune_stats.hpp:112-115 and
libkcommon/prune_stats.cpp:154-163. -/
def sample (s : Active) (row : Nat) : Res (List Bool) :=
  s.active.mapM fun l =>
    match l[row]? with
    | none => .error .ub
    | some b => .ok b

/-- The order of the keys of the `std::map`: vectors of flags are compared lexicographically, `false` first and a
proper prefix first.  Models libkcommon/prune_stats.hpp:109-110. -/
def keyLt : List Bool → List Bool → Bool
  | [], [] => false
  | [], _ :: _ => true
  | _ :: _, [] => false
  | a :: l, b :: m => if a = b then keyLt l m else b

/-- `find` and then either `it->second++` or `data_hash[sample] = 1`, on the entries in the order of their keys.
Models libkcommon/prune_stats.hpp:117-122. -/
def bump (key : List Bool) : List (List Bool × Nat) → List (List Bool × Nat)
  | [] => [(key, 1)]
  | (k, c) :: l =>
    if key = k then (k, u64 (c + 1)) :: l
    else if keyLt key k then (key, 1) :: (k, c) :: l
    else (k, c) :: bump key l

/-- `consolidate_samples` over the rows in `rows`.  Models libkcommon/prune_stats.hpp:109-124. -/
def consolidate (s : Active) : List Nat → List (List Bool × Nat) → Res (List (List Bool × Nat))
  | [], h => .ok h
  | row :: l, h =>
    match sample s row with
    | .error e => .error e
    | .ok v => consolidate s l (bump v h)

/-- The text of a vector of flags, closed by a newline.  Models libkcommon/prune_stats.cpp:159-162 and
libkcommon/prune_stats.cpp:187-193. -/
def flagText : List Bool → String
  | [] => ""
  | [b] => (if b then "1" else "0") ++ "\n"
  | b :: c :: l => (if b then "1" else "0") ++ ", " ++ flagText (c :: l)

/-- The text written by `write_raw`: for each row its number and its flags.
Models libkcommon/prune_stats.cpp:153-164. -/
def rawText (s : Active) : List Nat → Res String
  | [] => .ok ""
  | row :: l =>
    match sample s row with
    | .error e => .error e
    | .ok v =>
      match rawText s l with
      | .error e => .error e
      | .ok t => .ok ((if s.active.isEmpty then "" else toString row ++ ", ") ++ flagText v ++ t)

/-- What `write_raw` puts into the file; a file that cannot be opened is a null pointer for `fwrite`.
Models libkcommon/prune_stats.cpp:148-171. -/
def writeRaw (canOpen : Bool) (s : Active) (cnt : Nat) : Res String :=
  match rawText s (List.range (if s.nrow < cnt then s.nrow else cnt)) with
  | .error e => .error e
  | .ok t => if canOpen then .ok t else .error .ub

/-- The entries of the map as text.  Models libkcommon/prune_stats.cpp:182-194. -/
def mapText : List (List Bool × Nat) → String
  | [] => ""
  | (v, c) :: l => toString c ++ ", " ++ flagText v ++ mapText l

/-- What `write_consolidated` puts into the file.  Models libkcommon/prune_stats.cpp:173-201. -/
def writeConsolidated (canOpen : Bool) (s : Active) (cnt : Nat) : Res String :=
  match consolidate s (List.range (if s.nrow < cnt then s.nrow else cnt)) [] with
  | .error e => .error e
  | .ok h => if canOpen then .ok (mapText h) else .error .ub

end Knor.Stats
