import Verif.Model.ScaledDriver
import Verif.Model.Hclust
import Verif.Model.Project

/-!
# Whole calls of hierarchical clustering, x-means and g-means, and the programs `hmeans`, `xmeans` and `gmeans`

`knor::hclust_coordinator::create(...)->run(...)` and its relatives, and exec/hmeans.cpp, exec/xmeans.cpp and
exec/gmeans.cpp.  Conventions are those of Model/Driver.lean, Model/Hclust.lean and Model/Xmeans.lean.
-/

namespace Knor.Driver

open Knor Knor.Io

variable {R S B : Type _} {n : Nat}

/-- The two means in `hcltrs[0]` after construction: `2 * ncol` numbers are copied from the centres that are given,
whatever the initialisation is; the copy is undefined if the array is shorter.
Models libman/hclust_coordinator.cpp:50-55 and libkcommon/clusters.hpp:333-338. -/
def hierMeans [Zero R] : Option (List R) → Res (Row R n × Row R n)
  | none => .ok (fun _ => 0, fun _ => 0)
  | some l =>
    if l.length < 2 * n then .error .ub
    else .ok (fun j => l.getD j.val 0, fun j => l.getD (n + j.val) 0)

/-- What `run_hinit` starts from; Forgy's method draws two row numbers.
Models libman/hclust_coordinator.cpp:142-181. -/
def hierStart (rng : Rng R S 2) (g : Row R n × Row R n) : InitT → Hclust.HInit R n
  | .forgy => .forgy (rng.row rng.seed).1 (rng.row (rng.row rng.seed).2).1
  | .none => .given g.1 g.2
  | .random => .other
  | .plusplus => .other

/-- The parameters of the run.  Models libman/hclust_coordinator.cpp:32-40. -/
def hierCfg (dist : Row R n → Row R n → R) (big : R) (data : Nat → Row R n) (a : Call R B) (kmax minSize : Nat)
    (grow : Bool) : Hclust.Cfg R R n :=
  { nrow := a.nrow, reqThreads := a.nthreads, kmax := kmax, maxIters := a.maxIters, minSize := minSize, tol := a.tol
    dist := dist, big := big, data := data, grow := grow }

/-- What follows `complete_final_centroids`: `verify_consistency`, in builds without the macro `BIND`, and the result
object.  `order` lists the keys of `final_centroids` in the iteration order of the map; `none` says that the main loop
is still running.  Models libman/hclust_coordinator.cpp:498-509. -/
def hierFinish [Zero R] (bind : Bool) (order : Hclust.St R n → List Nat) (cfg : Hclust.Cfg R R n)
    (r : Res (Option (Hclust.St R n))) : Res (Option (Compact.Result R n)) :=
  match r with
  | .error e => .error e
  | .ok none => .ok none
  | .ok (some s) =>
    match (if bind then .ok s else Hclust.verify cfg (order s) s) with
    | .error e => .error e
    | .ok s' =>
      match Hclust.result cfg (order s') s' with
      | .error e => .error e
      | .ok res => .ok (some res)

/-- `create(...)->run(...)` of one of the three coordinators, whose loop is `run`.
Models libman/hclust_coordinator.hpp:94-116, libman/hclust_coordinator.cpp:32-64, 426-510,
libman/xmeans_coordinator.hpp:66-88 and libman/gmeans_coordinator.hpp:42-64. -/
def hierCall [Zero R] (bind grow : Bool) (dist : Dist.Metric → Row R n → Row R n → R) (big : R) (c : Codec R B)
    (rng : Rng R S 2) (order : Hclust.St R n → List Nat) (kmax minSize : Nat)
    (run : Hclust.Cfg R R n → Hclust.HInit R n → Res (Option (Hclust.St R n))) (a : Call R B) :
    Res (Option (Compact.Result R n)) :=
  match getInit a.init with
  | .error e => .error e
  | .ok it =>
    match getDist a.dist with
    | .error e => .error e
    | .ok m =>
      if Hclust.hclustFloor kmax / 2 < 1 then .error .assertFail
      else match hierMeans a.centers with
        | .error e => .error e
        | .ok g =>
          match load c a n with
          | .error e => .error e
          | .ok ws =>
            let cfg := hierCfg (dist m) big (rowsIn ws a.nrow a.nthreads) a kmax minSize grow
            hierFinish bind order cfg (run cfg (hierStart rng g it))

/-- `hclust_coordinator::create(...)->run(...)`; `sched t i` is the interleaving of iteration `i` of round `t`.
Models libman/hclust_coordinator.hpp:94-115 and libman/hclust_coordinator.cpp:426-510. -/
def hclust [Zero R] [Add R] [Div R] [NatCast R] [IntCast R] [LE R] [DecidableLE R] [LT R] [DecidableLT R]
    (bind : Bool) (dist : Dist.Metric → Row R n → Row R n → R) (big : R) (c : Codec R B) (rng : Rng R S 2)
    (order : Hclust.St R n → List Nat) (sched : Nat → Nat → List Nat) (fuel kmax minSize : Nat) (a : Call R B) :
    Res (Option (Compact.Result R n)) :=
  hierCall bind false dist big c rng order kmax minSize (fun cfg it => Hclust.run cfg it sched fuel) a

/-- `xmeans_coordinator::create(...)->run(...)`; `dec cfg t s` are the partitions whose split is taken back in round
`t` at state `s`.  Models libman/xmeans_coordinator.hpp:66-88 and libman/xmeans_coordinator.cpp:251-346. -/
def xmeans [Zero R] [Add R] [Mul R] [Div R] [NatCast R] [IntCast R] [LE R] [DecidableLE R] [LT R] [DecidableLT R]
    (bind : Bool) (dist : Dist.Metric → Row R n → Row R n → R) (big : R) (c : Codec R B) (rng : Rng R S 2)
    (order : Hclust.St R n → List Nat) (dec : Hclust.Cfg R R n → Nat → Hclust.St R n → Res (List Nat))
    (sched : Nat → Nat → List Nat) (fuel kmax minSize : Nat) (a : Call R B) : Res (Option (Compact.Result R n)) :=
  hierCall bind false dist big c rng order kmax minSize (fun cfg it => Score.runD .x cfg it (dec cfg) sched fuel) a

/-- `gmeans_coordinator::create(...)->run(...)`; `activate` and `deactivate` are overridden.
Models libman/gmeans_coordinator.hpp:42-64 and libman/gmeans_coordinator.cpp:199-295. -/
def gmeans [Zero R] [Add R] [Mul R] [Div R] [NatCast R] [IntCast R] [LE R] [DecidableLE R] [LT R] [DecidableLT R]
    (bind : Bool) (dist : Dist.Metric → Row R n → Row R n → R) (big : R) (c : Codec R B) (rng : Rng R S 2)
    (order : Hclust.St R n → List Nat) (dec : Hclust.Cfg R R n → Nat → Hclust.St R n → Res (List Nat))
    (sched : Nat → Nat → List Nat) (fuel kmax minSize : Nat) (a : Call R B) : Res (Option (Compact.Result R n)) :=
  hierCall bind true dist big c rng order kmax minSize (fun cfg it => Score.runD .g cfg it (dec cfg) sched fuel) a

/-- The three programs; their initialisation is Forgy's, and two centres are read.
Models exec/hmeans.cpp:97-143, exec/xmeans.cpp:97-143 and exec/gmeans.cpp:100-146. -/
def hierProg (c : Codec R B) (datafn : List B) (centersfn : Option (List B)) (nrow ncol maxIters nthreads : Nat)
    (tol : R) (distType : String) (call : Call R B → Res (Option (Compact.Result R n))) :
    Res (Option (Compact.Result R n)) :=
  program c datafn centersfn nrow ncol 2 "forgy" fun init centers =>
    call ⟨.file datafn, nrow, maxIters, nthreads, centers, init, tol, distType⟩

end Knor.Driver
