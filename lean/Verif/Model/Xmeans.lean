import Verif.Model.Hclust

/-!
# X-means and g-means (`knor::xmeans_coordinator`, `knor::gmeans_coordinator`)

Models libman/xmeans.cpp, libman/xmeans_coordinator.cpp, libman/gmeans.cpp and
libman/gmeans_coordinator.cpp on top of `Model/Hclust.lean`: the same iterations and the same
splitting, plus a `sparse_clusters` object with the means of the partitions, and a decision after the
iterations that takes some splits back.

* Which splits are taken back is decided by the Bayesian information criterion (x-means) or the
  Anderson-Darling statistic (g-means).  The model leaves the decision open: `rej` lists the partitions
  whose split is taken back, in the order in which they are treated (in x-means an OpenMP loop treats
  them in any order; in g-means they come in increasing order).
* `partition_dist` and `nearest_cdist` only feed that decision and are left out, but the unchecked
  read of the partition's mean that computes `partition_dist` is kept (`pdistCheck`).
-/

namespace Knor.Xmeans

open Knor Knor.Hclust

variable {R D : Type _} {n : Nat}

/-! ## `sparse_clusters` -/

/-- A `sparse_clusters`; the entries from `nclust` on do not exist.
Models libkcommon/clusters.hpp:380-437. -/
structure Sparse (R : Type _) (n : Nat) where
  nclust : Nat
  means : Nat → Row R n
  num : Nat → Int
  complete : Nat → Bool

/-- `sparse_clusters::create` followed by `clear`.  Models libkcommon/clusters.cpp:217-219, 158-165. -/
def Sparse.create [Zero R] (nclust : Nat) : Sparse R n :=
  ⟨nclust, fun _ _ => 0, fun _ => 0, fun _ => false⟩

/-- `clear`, which keeps the size.  Models libkcommon/clusters.cpp:28-32. -/
def Sparse.clear [Zero R] (x : Sparse R n) : Sparse R n := Sparse.create x.nclust

/-- `resize`, called with `idx ≥ nclust`: the new entries are zero.
Models libkcommon/clusters.cpp:224-246. -/
def Sparse.resize [Zero R] (x : Sparse R n) (idx : Nat) : Sparse R n where
  nclust := idx + 1
  means := fun i => if i < x.nclust then x.means i else fun _ => 0
  num := fun i => if i < x.nclust then x.num i else 0
  complete := fun i => if i < x.nclust then x.complete i else false

/-- `add_member`.  Models libkcommon/clusters.hpp:420-425 and 128-134. -/
def Sparse.addMember [Zero R] [Add R] (x : Sparse R n) (row : Row R n) (idx : Nat) : Sparse R n :=
  let y := if x.nclust ≤ idx then x.resize idx else x
  { y with means := Function.update y.means idx (fun j => y.means idx j + row j)
           num := Function.update y.num idx (y.num idx + 1) }

/-- `peq`; `size()` is the length of the vector of means, `nclust * ncol`.  `num_members_peq` throws
beyond `nclust`.  Models libkcommon/clusters.cpp:260-269. -/
def Sparse.peq [Zero R] [Add R] (x rhs : Sparse R n) : Res (Sparse R n) :=
  let y := if x.nclust * n < rhs.nclust * n then x.resize (rhs.nclust * n) else x
  if y.nclust < rhs.nclust then .error .throws
  else .ok { y with
    means := fun i => if i < rhs.nclust then fun j => y.means i j + rhs.means i j else y.means i
    num := fun i => if i < rhs.nclust then y.num i + rhs.num i else y.num i }

/-- `finalize_all`.  Models libkcommon/clusters.cpp:55-66 and 81-84. -/
def Sparse.finalizeAll [Div R] [IntCast R] (x : Sparse R n) : Sparse R n :=
  { x with
    means := fun i => if i < x.nclust ∧ x.complete i = false ∧ x.num i > 1 then
        fun j => x.means i j / (x.num i : R) else x.means i
    complete := fun i => if i < x.nclust then true else x.complete i }

/-- `unfinalize_all`.  Models libkcommon/clusters.cpp:68-79 and 86-89. -/
def Sparse.unfinalizeAll [Mul R] [IntCast R] (x : Sparse R n) : Sparse R n :=
  { x with
    means := fun i => if i < x.nclust ∧ x.complete i = true ∧ ¬ x.num i < 2 then
        fun j => x.means i j * (x.num i : R) else x.means i
    complete := fun i => if i < x.nclust then false else x.complete i }

/-! ## State -/

/-- Which of the two algorithms.
Models the two classes of libman/xmeans_coordinator.hpp:50-110 and libman/gmeans_coordinator.hpp:26-78. -/
inductive Alg where
  | x
  | g
  deriving DecidableEq

/-- The coordinator's state: that of hierarchical clustering, the means of the partitions, and the
sizes of the workers' `local_clusters` (they are cleared, but keep their size).
Models libman/xmeans_coordinator.hpp:61-64 and libman/xmeans.hpp. -/
structure XSt (R : Type _) (n : Nat) where
  h : St R n
  cl : Sparse R n
  loc : Nat → Nat

/-- The state after construction and `run_hinit`.
Models libman/xmeans_coordinator.cpp:45-50, libman/xmeans.cpp:46-47 and the base class. -/
def start [Zero R] (c : Cfg R D n) (it : HInit R n) : Res (XSt R n) :=
  match construct c Clusters.empty with
  | .error e => .error e
  | .ok s0 =>
    match runHinit c it s0 with
    | .error e => .error e
    | .ok s1 => .ok ⟨s1, Sparse.create (maxHnodes (c.halfK * 2)), fun _ => maxHnodes (c.halfK * 2)⟩

/-! ## Means of the partitions -/

/-- The body of the loop of `partition_mean`.  Models libman/xmeans.cpp:62-71. -/
def meanRow [Zero R] [Add R] (c : Cfg R D n) (s : St R n) (a : Sparse R n) (r : Nat) :
    Res (Sparse R n) :=
  match VMap.flagsGet s.active (s.assign r) with
  | .error e => .error e
  | .ok false => .ok a
  | .ok true => .ok (a.addMember (c.data r) (s.part r))

/-- `partition_mean` of worker `t`: the cleared `local_clusters`, filled.  The workers only read shared
state in this phase, so their interleaving does not matter.  Models libman/xmeans.cpp:59-72. -/
def partitionMean [Zero R] [Add R] (c : Cfg R D n) (s : XSt R n) (t : Nat) : Res (Sparse R n) :=
  forEach (meanRow c s.h) (Kmeans.threadRows c.nrow c.reqThreads t) (Sparse.create (s.loc t))

/-- One worker's turn in the loop of `combine_partition_means`: its sums are added and the size of its
`local_clusters` is remembered.  Models libman/xmeans_coordinator.cpp:78-81. -/
def combineStep [Zero R] [Add R] (c : Cfg R D n) (s : XSt R n) (t : Nat) : Res (XSt R n) :=
  match partitionMean c s t with
  | .error e => .error e
  | .ok l =>
    match s.cl.peq l with
    | .error e => .error e
    | .ok cl => .ok { s with cl := cl, loc := Function.update s.loc t l.nclust }

/-- `wake4run(MEAN); wait4complete(); combine_partition_means();`.
Models libman/xmeans_coordinator.cpp:279-281 and 75-83. -/
def meanPhase [Zero R] [Add R] [Mul R] [Div R] [IntCast R] (c : Cfg R D n) (s : XSt R n) : Res (XSt R n) :=
  match forEach (combineStep c) (List.range (Partition.effThreads c.reqThreads c.nrow))
      { s with cl := s.cl.unfinalizeAll } with
  | .error e => .error e
  | .ok s1 => .ok { s1 with cl := s1.cl.finalizeAll }

/-! ## Iterations -/

/-- The unchecked reads `g_clusters->get_means()[rpart_id*ncol]` of the first iteration, for every row.
Neither `part_id` nor the means change during the step.  Models libman/xmeans.cpp:98-103. -/
def pdistCheck (c : Cfg R D n) (s : XSt R n) : Res (XSt R n) :=
  if 0 < c.maxIters ∧ ∃ r ∈ List.range c.nrow, s.cl.nclust ≤ s.h.part r then .error .ub else .ok s

/-- The reads of `H_split_step`: the partition of an active row is dereferenced.
Models libman/gmeans.cpp:40-59. -/
def splitCheck (c : Cfg R D n) (s : St R n) : Res (St R n) :=
  forEach (fun s r => match VMap.flagsGet s.active (s.assign r) with
    | .error e => .error e
    | .ok false => .ok s
    | .ok true => match s.hc (s.part r) with
      | none => .error .ub
      | some _ => .ok s) (List.range c.nrow) s

/-- The iterations of a round, with the reads above.  The rest of `xmeans::H_EM_step` is
`hclust::H_EM_step`.  Models libman/xmeans_coordinator.cpp:284-299, libman/xmeans.cpp:75-138 and
libman/gmeans_coordinator.cpp:229-249. -/
def iterate [Zero R] [Add R] [Div R] [NatCast R] [IntCast R] [LE R] [DecidableLE R]
    [LT D] [DecidableLT D] (alg : Alg) (c : Cfg R D n)
    (sched : Nat → List Nat) (s : XSt R n) : Res (XSt R n) :=
  match pdistCheck c s with
  | .error e => .error e
  | .ok _ =>
    match iterations c sched s.h with
    | .error e => .error e
    | .ok h1 =>
      match (if alg = .g then splitCheck c h1 else .ok h1) with
      | .error e => .error e
      | .ok h2 => .ok { s with h := h2 }

/-! ## Taking splits back -/

/-- `final_centroids[pid] = ` the mean of the partition; `get_mean_rawptr` throws beyond the end.
Models libman/xmeans_coordinator.cpp:229-231, libman/gmeans_coordinator.cpp:156-158 and
libkcommon/clusters.hpp:412-417. -/
def putFinal (cl : Sparse R n) (p : Nat) (s : St R n) : Res (St R n) :=
  if p < cl.nclust then .ok { s with final := Function.update s.final p (some (cl.means p)) }
  else .error .throws

/-- The counts of the partition and of its two sides.
Models libman/xmeans_coordinator.cpp:211-216 and libman/gmeans_coordinator.cpp:159-161. -/
def revertCounts (p lid rid : Nat) (s : St R n) : Res (St R n) :=
  match s.getCount lid with
  | .error e => .error e
  | .ok cl =>
    match s.getCount rid with
    | .error e => .error e
    | .ok cr =>
      match s.setCount p (cl + cr) with
      | .error e => .error e
      | .ok s1 =>
        match s1.setCount rid 0 with
        | .error e => .error e
        | .ok s2 => s2.setCount lid 0

/-- `deactivate(lid); deactivate(rid); deactivate(pid);`.
Models libman/xmeans_coordinator.cpp:219-221 and libman/gmeans_coordinator.cpp:145-147. -/
def deactivate3 (p lid rid : Nat) (s : St R n) : Res (St R n) :=
  match s.deactivate lid with
  | .error e => .error e
  | .ok s1 =>
    match s1.deactivate rid with
    | .error e => .error e
    | .ok s2 => s2.deactivate p

/-- `reclaim_id(lid); reclaim_id(rid);`.
Models libman/xmeans_coordinator.cpp:227-228 and libman/gmeans_coordinator.cpp:152-153. -/
def reclaim2 (lid rid : Nat) (s : St R n) : St R n :=
  { s with gen := (s.gen.reclaim lid).reclaim rid }

/-- One split taken back by x-means; `orig` are the assignments from which the member lists
`memb_cltrs` were made.  Models libman/xmeans_coordinator.cpp:192-232. -/
def rejectX (cl : Sparse R n) (orig : Nat → Nat) (s : St R n) (p : Nat) : Res (St R n) :=
  match s.hc p with
  | none => .error .ub
  | some nd =>
    match revertCounts p nd.zero nd.one { s with
        assign := fun r => if orig r = nd.zero ∨ orig r = nd.one then p else s.assign r } with
    | .error e => .error e
    | .ok s1 =>
      match deactivate3 p nd.zero nd.one s1 with
      | .error e => .error e
      | .ok s2 => putFinal cl p (reclaim2 nd.zero nd.one s2)

/-- The reads of the counts in `bic`, for every partition.
Models libman/xmeans_coordinator.cpp:99-100. -/
def bicCheck (s : St R n) (p : Nat) : Res (St R n) :=
  match s.hc p with
  | none => .error .ub
  | some nd =>
    match s.getCount nd.zero with
    | .error e => .error e
    | .ok _ =>
      match s.getCount nd.one with
      | .error e => .error e
      | .ok _ => .ok s

/-- `partition_decision` of x-means.  Models libman/xmeans_coordinator.cpp:181-248. -/
def decideX (cl : Sparse R n) (rej : List Nat) (s : St R n) : Res (St R n) :=
  match forEach bicCheck s.keys s with
  | .error e => .error e
  | .ok s0 =>
    match forEach (rejectX cl s0.assign) rej s0 with
    | .error e => .error e
    | .ok s1 => forEach St.eraseNode rej s1

/-- One split taken back by g-means, without the rows.
Models libman/gmeans_coordinator.cpp:136-163. -/
def rejectG (cl : Sparse R n) (s : St R n) (p : Nat) : Res (St R n) :=
  match s.hc p with
  | none => .error .ub
  | some nd =>
    match deactivate3 p nd.zero nd.one s with
    | .error e => .error e
    | .ok s1 =>
      match s1.eraseNode p with
      | .error e => .error e
      | .ok s2 =>
        match putFinal cl p { reclaim2 nd.zero nd.one s2 with ncl := sub64 s2.ncl 2 } with
        | .error e => .error e
        | .ok s3 => revertCounts p nd.zero nd.one s3

/-- `ad_vecs[pid].back()` for every partition: undefined if no row is in it.
Models libman/gmeans_coordinator.cpp:79-84, 136-138. -/
def adCheck (c : Cfg R D n) (s : St R n) (p : Nat) : Res (St R n) :=
  if ∃ r ∈ List.range c.nrow, s.part r = p then .ok s else .error .ub

/-- `partition_decision` of g-means; `max_element` of no keys is undefined.
Models libman/gmeans_coordinator.cpp:108-178. -/
def decideG (c : Cfg R D n) (cl : Sparse R n) (rej : List Nat) (s : St R n) : Res (St R n) :=
  if s.keys = [] then .error .ub
  else
    match forEach (adCheck c) s.keys s with
    | .error e => .error e
    | .ok s0 =>
      match forEach (rejectG cl) rej s0 with
      | .error e => .error e
      | .ok s1 => .ok { s1 with assign := fun r => if s1.part r ∈ rej then s1.part r else s1.assign r }

/-- `partition_decision` of the chosen algorithm (a virtual member function).
Models libman/xmeans_coordinator.cpp:181-248 and libman/gmeans_coordinator.cpp:108-178. -/
def partitionDecision (alg : Alg) (c : Cfg R D n) (rej : List Nat) (s : XSt R n) : Res (XSt R n) :=
  match (match alg with
    | .x => decideX s.cl rej s.h
    | .g => decideG c s.cl rej s.h) with
  | .error e => .error e
  | .ok h => .ok { s with h := h }

/-! ## The main loop -/

/-- `assert(steady_state())`: no activity flag is set.
Models libman/hclust_coordinator.cpp:336-341, libman/xmeans_coordinator.cpp:316. -/
def steady (s : St R n) : Bool := s.active.all fun b => !b

/-- The main loop, for at most `fuel` rounds; `none` says that it is still running after them.
`sched t i` is the interleaving of iteration `i` of round `t`, `dec t` maps the partitions of round `t`
to those whose split is taken back.
Models libman/xmeans_coordinator.cpp:274-322 and libman/gmeans_coordinator.cpp:222-272. -/
def loop [Zero R] [Add R] [Mul R] [Div R] [NatCast R] [IntCast R] [LE R] [DecidableLE R]
    [LT D] [DecidableLT D] (alg : Alg) (c : Cfg R D n)
    (dec : Nat → List Nat → List Nat) (sched : Nat → Nat → List Nat) :
    Nat → Nat → XSt R n → Res (Option (XSt R n))
  | 0, _, _ => .ok none
  | fuel + 1, t, s =>
    match meanPhase c s with
    | .error e => .error e
    | .ok s1 =>
      match iterate alg c (sched t) s1 with
      | .error e => .error e
      | .ok s2 =>
        match partitionDecision alg c (dec t s2.h.keys) s2 with
        | .error e => .error e
        | .ok s3 =>
          if c.atCap s3.h then .ok (some s3)
          else
            match initSplits c s3.h with
            | .error e => .error e
            | .ok h4 =>
              if h4.keys = [] then
                if steady h4 then .ok (some { s3 with h := h4 }) else .error .assertFail
              else loop alg c dec sched fuel (t + 1) { s3 with h := h4 }

/-- `run` up to and including `complete_final_centroids`; the result object and `verify_consistency`
are those of hierarchical clustering.
Models libman/xmeans_coordinator.cpp:251-324 and libman/gmeans_coordinator.cpp:199-273. -/
def run [Zero R] [Add R] [Mul R] [Div R] [NatCast R] [IntCast R] [LE R] [DecidableLE R]
    [LT D] [DecidableLT D] (alg : Alg) (c : Cfg R D n)
    (it : HInit R n) (dec : Nat → List Nat → List Nat) (sched : Nat → Nat → List Nat) (fuel : Nat) :
    Res (Option (St R n)) :=
  match start c it with
  | .error e => .error e
  | .ok s1 =>
    match loop alg c dec sched fuel 0 s1 with
    | .error e => .error e
    | .ok none => .ok none
    | .ok (some s2) => .ok (some (completeFinal s2.h))

end Knor.Xmeans
