import Verif.Model.Kmeans
import Verif.Model.IdGen
import Verif.Model.VMap
import Verif.Model.Compact

/-!
# Hierarchical clustering (`hmeans`, `knor::hclust_coordinator`)

Models libman/hclust.cpp and libman/hclust_coordinator.cpp, with the id generator of
`Model/IdGen.lean`, the flag vector of `Model/VMap.lean` and the result constructor of
`Model/Compact.lean`.

* The map `hcltrs` (a `vmap` of pointers) is a partial function with the size of the underlying
  vector, which C47 justifies; dereferencing an absent entry is a null dereference.
* `cluster_assignment_counts` and the activity flags are vectors with unchecked access.
* `dist`, `big`, `data` are as in `Model/Kmeans.lean`.
-/

namespace Knor.Hclust

open Knor

variable {R D : Type _} {n : Nat}

/-- Run `f` over a list from the left, stopping at the first fault: the C++ loops over keys.
Models the loops of libman/hclust_coordinator.cpp:201, 300, 348, 374 and 410. -/
def forEach {σ α : Type _} (f : σ → α → Res σ) : List α → σ → Res σ
  | [], s => .ok s
  | x :: l, s =>
    match f s x with
    | .error e => .error e
    | .ok s' => forEach f l s'

/-- A partition that is being split in two.  Models libkcommon/clusters.hpp:308-312. -/
structure Node (R : Type _) (n : Nat) where
  cl : Clusters R 2 n
  zero : Nat
  one : Nat
  conv : Bool

/-- The parameters of a run: rows, threads, the requested `k`, `max_iters`, `min_clust_size`,
`tolerance`, metric and data.  Models libman/hclust_coordinator.cpp:32-40. -/
structure Cfg (R D : Type _) (n : Nat) where
  nrow : Nat
  reqThreads : Nat
  kmax : Nat
  maxIters : Nat
  minSize : Nat
  tol : R
  dist : Row R n → Row R n → D
  big : D
  data : Nat → Row R n
  /-- Whether `activate` and `deactivate` are the overrides of g-means, which enlarge the vector. -/
  grow : Bool := false

/-- `get_hclust_floor`, the largest power of two that is at most `k` (for `k ≥ 1`).
Models libkcommon/util.cpp:73-75. -/
def hclustFloor (k : Nat) : Nat := 2 ^ Nat.log2 k

/-- The loop of `get_max_hnodes`; the first argument bounds the number of rounds, 32 being enough for
arguments below 2^31.  Models libkcommon/util.hpp:51-54. -/
def maxHnodesLoop (v : Nat) : Nat → Nat → Nat → Nat
  | 0, _, nodes => nodes
  | fuel + 1, i, nodes => if i ≤ v then maxHnodesLoop v fuel (i * 2) (nodes + i) else nodes

/-- `get_max_hnodes`.  Models libkcommon/util.hpp:49-55. -/
def maxHnodes (v : Nat) : Nat := maxHnodesLoop v 32 1 0

/-- The coordinator's member `k`.  Models libman/hclust_coordinator.cpp:38. -/
def Cfg.halfK (c : Cfg R D n) : Nat := hclustFloor c.kmax / 2

/-- The member `max_nodes`.  Models libman/hclust_coordinator.cpp:44. -/
def Cfg.maxNodes (c : Cfg R D n) : Nat := maxHnodes (c.kmax * 2)

/-- The coordinator's state.  Models libman/hclust_coordinator.hpp:69-85. -/
structure St (R : Type _) (n : Nat) where
  hc : Nat → Option (Node R n)
  hsize : Nat
  active : List Bool
  assign : Nat → Nat
  part : Nat → Nat
  counts : List Int
  gen : IdGen.Gen
  final : Nat → Option (Row R n)
  ncl : Nat
  grow : Bool := false

/-- The keys of `hcltrs` in increasing order (`get_keys` and the iterator, C47).
Models libkcommon/types.hpp:153-159. -/
def St.keys (s : St R n) : List Nat := (List.range s.hsize).filter fun i => (s.hc i).isSome

/-- Assigning to `hcltrs[i]`.  Models libkcommon/types.hpp:119-123. -/
def St.putNode (s : St R n) (i : Nat) (nd : Node R n) : St R n :=
  { s with hc := Function.update s.hc i (some nd), hsize := max s.hsize (i + 1) }

/-- `hcltrs.erase(i)`.  Models libkcommon/types.hpp:117. -/
def St.eraseNode (s : St R n) (i : Nat) : Res (St R n) :=
  if i < s.hsize then .ok { s with hc := Function.update s.hc i none } else .error .ub

/-- Writing an activity flag: `set`, or `check_set` in g-means.
Models libman/hclust_coordinator.cpp:321, 325 and libman/gmeans_coordinator.cpp:48, 52. -/
def setFlag (grow : Bool) (l : List Bool) (id : Nat) (v : Bool) : Res (List Bool) :=
  if grow then VMap.flagsCheckSet l id v else VMap.flagsSet l id v

/-- `activate`.  Models libman/hclust_coordinator.cpp:324-328 and
libman/gmeans_coordinator.cpp:51-55. -/
def St.activate (s : St R n) (id : Nat) : Res (St R n) :=
  match setFlag s.grow s.active id true with
  | .error e => .error e
  | .ok a => .ok { s with active := a, ncl := if id > 0 then s.ncl + 1 else s.ncl }

/-- `deactivate`.  Models libman/hclust_coordinator.cpp:320-322 and
libman/gmeans_coordinator.cpp:47-49. -/
def St.deactivate (s : St R n) (id : Nat) : Res (St R n) :=
  match setFlag s.grow s.active id false with
  | .error e => .error e
  | .ok a => .ok { s with active := a }

/-- Writing `cluster_assignment_counts[i]`, an unchecked vector access.
Models libman/hclust_coordinator.cpp:380-382. -/
def St.setCount (s : St R n) (i : Nat) (v : Int) : Res (St R n) :=
  if i < s.counts.length then .ok { s with counts := s.counts.set i v } else .error .ub

/-- Reading `cluster_assignment_counts[i]`, an unchecked vector access.
Models libman/hclust_coordinator.cpp:211 and 222. -/
def St.getCount (s : St R n) (i : Nat) : Res Int :=
  match s.counts[i]? with
  | some v => .ok v
  | none => .error .ub

/-- `at_cluster_cap`.  Models libman/hclust_coordinator.hpp:146. -/
def Cfg.atCap (c : Cfg R D n) (s : St R n) : Bool := decide (s.ncl > c.halfK * 2)

/-- The state after construction; the base class checks its `k`.  `ncl` is still 0: activating id 0 is not counted.  The capacity of
`hcltrs` is positive, so entry 0 exists.
Models libman/hclust_coordinator.cpp:38-64 and libman/coordinator.cpp:42. -/
def construct (c : Cfg R D n) (centers : Clusters R 2 n) : Res (St R n) :=
  if c.halfK < 1 then .error .assertFail
  else St.activate
    { hc := fun i => if i = 0 then some ⟨centers, 0, 0, false⟩ else none
      hsize := max c.maxNodes 1
      active := VMap.flagsCreate c.maxNodes false
      assign := fun _ => 0
      part := fun _ => 0
      counts := List.replicate c.maxNodes 0
      gen := IdGen.create
      final := fun _ => none
      ncl := 0
      grow := c.grow } 0

/-- How the first two centroids are chosen: `forgy` with the two random row numbers, `none` with the
means given to the constructor (zero without centres), or one of the other types.
Models libman/hclust_coordinator.cpp:170-181. -/
inductive HInit (R : Type _) (n : Nat) where
  | forgy (i j : Nat)
  | given (m0 m1 : Row R n)
  | other

/-- `run_hinit`: `forgy_init` or `none_init`; every other type is rejected.
Models libman/hclust_coordinator.cpp:142-181. -/
def runHinit (c : Cfg R D n) (it : HInit R n) (s : St R n) : Res (St R n) :=
  let go (m0 m1 : Row R n) : Res (St R n) :=
    match s.hc 0 with
    | none => .error .ub
    | some nd =>
      let sp := s.gen.split
      let nd' : Node R n := { nd with
        cl := (nd.cl.setMean m0 0).setMean m1 1, zero := sp.1.1, one := sp.1.2 }
      match St.activate ({ s with gen := sp.2 }.putNode 0 nd') sp.1.1 with
      | .error e => .error e
      | .ok s1 => s1.activate sp.1.2
  match it with
  | .forgy i j => go (c.data i) (c.data j)
  | .given m0 m1 => go m0 m1
  | .other => .error .throws

/-! ## The E-step -/

/-- A worker's accumulators `nchanged` and `local_hcltrs`.  The entries of `local_hcltrs` are created at
the start of the step for exactly the partitions that have not converged; since `hcltrs` does not
change during the step, the entry used at libman/hclust.cpp:130 always exists, and the model makes the
function total.  Models libman/hclust.cpp:82-94. -/
structure HAcc (R : Type _) (n : Nat) where
  nchanged : Nat → Nat
  loc : Nat → Clusters R 2 n

/-- Accumulators at the beginning of the step.  Models libman/hclust.cpp:82-94. -/
def HAcc.init [Zero R] : HAcc R n := ⟨fun _ => 0, fun _ => Clusters.empty⟩

/-- The new cluster of a row: `none` if the row is skipped, otherwise the chosen side.
Models libman/hclust.cpp:99-126. -/
def choose [LT D] [DecidableLT D] (c : Cfg R D n) (s : St R n) (r : Nat) (old : Nat) :
    Res (Option (Node R n × Fin 2)) :=
  match VMap.flagsGet s.active old with
  | .error e => .error e
  | .ok false => .ok none
  | .ok true =>
    match s.hc (s.part r) with
    | none => .error .ub
    | some nd =>
      if nd.conv then .ok none
      else
        match Kmeans.emScan c.big (fun i => c.dist (c.data r) (nd.cl.means i)) with
        | none => .error .assertFail
        | some i => .ok (some (nd, i))

/-- The id of a side.  Models libman/hclust.cpp:117-121. -/
def Node.side (nd : Node R n) (i : Fin 2) : Nat := if i = 0 then nd.zero else nd.one

/-- The body of the row loop of `H_EM_step`.  Models libman/hclust.cpp:97-132. -/
def hemRow [Add R] [LT D] [DecidableLT D] (c : Cfg R D n) (s : St R n) (r : Nat) (old : Nat)
    (a : HAcc R n) : Res (Nat × HAcc R n) :=
  match choose c s r old with
  | .error e => .error e
  | .ok none => .ok (old, a)
  | .ok (some (nd, i)) =>
    .ok (nd.side i,
      { nchanged := Function.update a.nchanged (s.part r)
          (if nd.side i ≠ old then a.nchanged (s.part r) + 1 else a.nchanged (s.part r))
        loc := Function.update a.loc (s.part r) ((a.loc (s.part r)).addMember (c.data r) i) })

/-! ## The M-step -/

/-- The assertion that every key is active.  Models libman/hclust_coordinator.cpp:347-350. -/
def checkActive (s : St R n) (p : Nat) : Res (St R n) :=
  match VMap.flagsGet s.active p with
  | .error e => .error e
  | .ok false => .error .assertFail
  | .ok true => .ok s

/-- Clear the partitions that have not converged and add the workers' sums in thread order; the
workers have entries for exactly these partitions.
Models libman/hclust_coordinator.cpp:351-372. -/
def mergeNodes [Zero R] [Add R] (T : Nat) (acc : Nat → HAcc R n) (s : St R n) : St R n :=
  { s with hc := fun p => match s.hc p with
      | none => none
      | some nd => if nd.conv then some nd else some { nd with
          cl := (List.range T).foldl (fun x t => Clusters.peq x ((acc t).loc p)) Clusters.empty } }

/-- The summed `nchanged`.  Models libman/hclust_coordinator.cpp:345, 359-363. -/
def mergeChanged (T : Nat) (acc : Nat → HAcc R n) (p : Nat) : Nat :=
  (List.range T).foldl (fun m t => m + (acc t).nchanged p) 0

/-- The convergence test of a partition.  Models libman/hclust_coordinator.cpp:390-393. -/
def nodeConv [Div R] [NatCast R] [IntCast R] [LE R] [DecidableLE R] (tol : R) (changed : Nat) (members : Int) : Bool :=
  changed == 0 || decide ((changed : R) / (members : R) ≤ tol)

/-- The last loop of `update_clusters`: counts, means and convergence of one partition.
Models libman/hclust_coordinator.cpp:375-395. -/
def nodeStep [Div R] [NatCast R] [IntCast R] [LE R] [DecidableLE R] (tol : R) (changed : Nat → Nat) (s : St R n) (p : Nat) :
    Res (St R n) :=
  match s.hc p with
  | none => .error .ub
  | some nd =>
    match s.setCount p 0 with
    | .error e => .error e
    | .ok s1 =>
      match s1.setCount nd.zero (nd.cl.num 0) with
      | .error e => .error e
      | .ok s2 =>
        match s2.setCount nd.one (nd.cl.num 1) with
        | .error e => .error e
        | .ok s3 =>
          if nd.conv then .ok s3
          else .ok (s3.putNode p { nd with
            cl := (nd.cl.finalize 0).finalize 1
            conv := nodeConv tol (changed p) (nd.cl.num 0 + nd.cl.num 1) })

/-- `update_clusters`.  Models libman/hclust_coordinator.cpp:343-396. -/
def updateClusters [Zero R] [Add R] [Div R] [NatCast R] [IntCast R] [LE R] [DecidableLE R]
    (c : Cfg R D n) (T : Nat) (acc : Nat → HAcc R n)
    (s : St R n) : Res (St R n) :=
  match forEach checkActive s.keys s with
  | .error e => .error e
  | .ok s1 =>
    let s2 := mergeNodes T acc s1
    forEach (nodeStep c.tol (mergeChanged T acc)) s2.keys s2

/-- One iteration: `wake4run(H_EM); wait4complete(); update_clusters();`.
Models libman/hclust_coordinator.cpp:457-461. -/
def iteration [Zero R] [Add R] [Div R] [NatCast R] [IntCast R] [LE R] [DecidableLE R]
    [LT D] [DecidableLT D] (c : Cfg R D n)
    (sched : List Nat) (s : St R n) : Res (St R n) :=
  match Par.run (hemRow c s)
      { mem := s.assign, acc := fun _ => HAcc.init
        todo := Kmeans.threadRows c.nrow c.reqThreads } sched with
  | .error e => .error e
  | .ok p => updateClusters c (Partition.effThreads c.reqThreads c.nrow) p.acc
      { s with assign := p.mem }

/-- The `for` loop over the iterations; `sched i` is the interleaving of iteration `i`.
Models libman/hclust_coordinator.cpp:453-467. -/
def iterations [Zero R] [Add R] [Div R] [NatCast R] [IntCast R] [LE R] [DecidableLE R]
    [LT D] [DecidableLT D] (c : Cfg R D n)
    (sched : Nat → List Nat) (s : St R n) : Res (St R n) :=
  forEach (fun s i => iteration c (sched i) s) (List.range c.maxIters) s

/-! ## Splitting -/

/-- `c_part` with the four completion flags.  Models libman/hclust_coordinator.hpp:38-66 and
libman/hclust_coordinator.cpp:205-208. -/
structure Scan where
  l0 : Option Nat := none
  l1 : Option Nat := none
  r0 : Option Nat := none
  r1 : Option Nat := none
  l0c : Bool
  l1c : Bool
  r0c : Bool
  r1c : Bool
  deriving DecidableEq, Repr

/-- The loop over the rows that looks for two rows of each side; `actZ` and `actO` say whether the
two sides are active.  Models libman/hclust_coordinator.cpp:237-266. -/
def scanRows (assign : Nat → Nat) (zeroid oneid : Nat) (actZ actO : Bool) : List Nat → Scan → Scan
  | [], x => x
  | v :: vs, x =>
    if x.l0c && x.l1c && x.r0c && x.r1c then x
    else if assign v = zeroid then
      if !x.l0c then scanRows assign zeroid oneid actZ actO vs { x with l0 := some v, l0c := true }
      else if !x.l1c then
        let x' := { x with l1 := some v, l1c := true }
        if !actO then x' else scanRows assign zeroid oneid actZ actO vs x'
      else scanRows assign zeroid oneid actZ actO vs x
    else if assign v = oneid then
      if !x.r0c then scanRows assign zeroid oneid actZ actO vs { x with r0 := some v, r0c := true }
      else if !x.r1c then
        let x' := { x with r1 := some v, r1c := true }
        if !actZ then x' else scanRows assign zeroid oneid actZ actO vs x'
      else scanRows assign zeroid oneid actZ actO vs x
    else scanRows assign zeroid oneid actZ actO vs x

/-- One half of `spawn`: if two rows were found, partition `id` is going to be split, starting from
these two rows.  Models libman/hclust_coordinator.cpp:274-282 and 284-292. -/
def spawnOne [Zero R] (c : Cfg R D n) (id : Nat) (a b : Option Nat) (s : St R n) : Res (St R n) :=
  match a, b with
  | some x, some y =>
    let sp := s.gen.split
    let nd : Node R n :=
      { cl := ((Clusters.empty).setMean (c.data x) 0).setMean (c.data y) 1
        zero := sp.1.1, one := sp.1.2, conv := false }
    match St.activate ({ s with gen := sp.2 }.putNode id nd) sp.1.1 with
    | .error e => .error e
    | .ok s1 => s1.activate sp.1.2
  | _, _ => .ok s

/-- `spawn`.  Models libman/hclust_coordinator.cpp:271-293. -/
def spawn [Zero R] (c : Cfg R D n) (zeroid oneid : Nat) (x : Scan) (s : St R n) : Res (St R n) :=
  match spawnOne c zeroid x.l0 x.l1 s with
  | .error e => .error e
  | .ok s1 => spawnOne c oneid x.r0 x.r1 s1

/-- The check of one side for minimum size and cap: whether it is retired, and the state.
Models libman/hclust_coordinator.cpp:210-220 and 222-230. -/
def retire (c : Cfg R D n) (id : Nat) (mean : Row R n) (s : St R n) : Res (Bool × St R n) :=
  match s.getCount id with
  | .error e => .error e
  | .ok cnt =>
    if cnt < c.minSize ∨ c.atCap s = true then
      match s.deactivate id with
      | .error e => .error e
      | .ok s1 => .ok (true, { s1 with final := Function.update s1.final id (some mean) })
    else .ok (false, s)

/-- The body of the loop of `inner_init` for the partition `id`.
Models libman/hclust_coordinator.cpp:201-268. -/
def innerStep [Zero R] (c : Cfg R D n) (s : St R n) (id : Nat) : Res (St R n) :=
  match s.hc id with
  | none => .error .ub
  | some nd =>
    match retire c nd.zero (nd.cl.means 0) s with
    | .error e => .error e
    | .ok (lc, s1) =>
      match retire c nd.one (nd.cl.means 1) s1 with
      | .error e => .error e
      | .ok (rc, s2) =>
        match s2.getCount id with
        | .error e => .error e
        | .ok cnt =>
          if cnt ≠ 0 then .error .assertFail
          else
            match VMap.flagsGet s2.active nd.zero, VMap.flagsGet s2.active nd.one with
            | .ok actZ, .ok actO =>
              spawn c nd.zero nd.one
                (scanRows s2.assign nd.zero nd.one actZ actO (List.range c.nrow)
                  { l0c := lc, l1c := lc, r0c := rc, r1c := rc }) s2
            | _, _ => .error .ub

/-- The body of the removal loop of `init_splits`.
Models libman/hclust_coordinator.cpp:300-305. -/
def removeStep (s : St R n) (id : Nat) : Res (St R n) :=
  match s.eraseNode id with
  | .error e => .error e
  | .ok s1 =>
    match s1.deactivate id with
    | .error e => .error e
    | .ok s2 => .ok { s2 with gen := s2.gen.reclaim id, ncl := sub64 s2.ncl 1 }

/-- `init_splits`.  Models libman/hclust_coordinator.cpp:295-309. -/
def initSplits [Zero R] (c : Cfg R D n) (s : St R n) : Res (St R n) :=
  let ids := s.keys
  match forEach (innerStep c) ids s with
  | .error e => .error e
  | .ok s1 =>
    match forEach removeStep ids s1 with
    | .error e => .error e
    | .ok s2 => .ok { s2 with part := s2.assign }

/-! ## The main loop -/

/-- `complete_final_centroids`.  Models libman/hclust_coordinator.cpp:409-421. -/
def completeFinal (s : St R n) : St R n :=
  { s with final := s.keys.foldl (fun f p => match s.hc p with
      | none => f
      | some nd => Function.update (Function.update f nd.zero (some (nd.cl.means 0)))
          nd.one (some (nd.cl.means 1))) s.final }

/-- The main loop, for at most `fuel` rounds; `none` says that it is still running after them.
`sched t i` is the interleaving of iteration `i` of round `t`.
Models libman/hclust_coordinator.cpp:446-486. -/
def loop [Zero R] [Add R] [Div R] [NatCast R] [IntCast R] [LE R] [DecidableLE R]
    [LT D] [DecidableLT D] (c : Cfg R D n)
    (sched : Nat → Nat → List Nat) : Nat → Nat → St R n → Res (Option (St R n))
  | 0, _, _ => .ok none
  | fuel + 1, t, s =>
    match iterations c (sched t) s with
    | .error e => .error e
    | .ok s1 =>
      if c.atCap s1 then .ok (some s1)
      else
        match initSplits c s1 with
        | .error e => .error e
        | .ok s2 => if s2.keys = [] then .ok (some s2) else loop c sched fuel (t + 1) s2

/-- `run` up to and including `complete_final_centroids`.
Models libman/hclust_coordinator.cpp:426-488. -/
def run [Zero R] [Add R] [Div R] [NatCast R] [IntCast R] [LE R] [DecidableLE R]
    [LT D] [DecidableLT D] (c : Cfg R D n) (it : HInit R n)
    (sched : Nat → Nat → List Nat) (fuel : Nat) : Res (Option (St R n)) :=
  match construct c Clusters.empty with
  | .error e => .error e
  | .ok s0 =>
    match runHinit c it s0 with
    | .error e => .error e
    | .ok s1 =>
      match loop c sched fuel 0 s1 with
      | .error e => .error e
      | .ok none => .ok none
      | .ok (some s2) => .ok (some (completeFinal s2))

/-- `verify_consistency`, compiled in when the `BIND` macro is not defined: the assertions on the
number of centroids and on the sum of the counts.  `ids` lists the keys of `final_centroids`.
Models libman/hclust_coordinator.cpp:398-407. -/
def verify (c : Cfg R D n) (ids : List Nat) (s : St R n) : Res (St R n) :=
  if ids.length ≠ (s.counts.filter fun x => decide (x > 0)).length then .error .assertFail
  else if s.counts.sum ≠ c.nrow then .error .assertFail
  else .ok s

/-- The result object; `ids` lists the keys of `final_centroids` in the iteration order of the
`unordered_map`.  Models libman/hclust_coordinator.cpp:507-509. -/
def result [Zero R] (c : Cfg R D n) (ids : List Nat) (s : St R n) : Res (Compact.Result R n) :=
  Compact.hierResult ((List.range c.nrow).map s.assign) s.counts
    (ids.map fun i => (i, (s.final i).getD fun _ => 0))

end Knor.Hclust
