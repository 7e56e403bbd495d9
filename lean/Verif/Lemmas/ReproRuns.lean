import Verif.Lemmas.Repro
import Verif.Lemmas.Split
import Verif.Lemmas.Kmeans
import Verif.Lemmas.Prune
import Verif.Lemmas.Omp
import Verif.Model.Distr
import Verif.Model.MiniBatch
import Verif.Model.Medoid
import Verif.Model.Fcm
import Verif.Model.Skmeans
import Verif.Model.Xmeans
import Verif.Model.MultiStart

/-!
# Whole runs do not depend on the interleaving, whatever the arithmetic
-/

namespace Knor

open Par (Split Complete)

variable {α β : Type _}

@[elab_as_elim]
theorem SameOutcome.elim {x y : Res α} (h : SameOutcome x y) {motive : Res α → Res α → Prop}
    (ok : ∀ a, motive (.ok a) (.ok a)) (fail : ∀ e e', motive (.error e) (.error e')) : motive x y := by
  cases h with
  | ok a => exact ok a
  | fail e e' => exact fail e e'

theorem SameOutcome.refl (x : Res α) : SameOutcome x x := by
  cases x with
  | ok a => exact .ok a
  | error e => exact .fail e e

/-- A phase whose rows are split over `T` workers. -/
theorem Par.Split.same {μ α : Type _} {N T : Nat} {todo : Nat → List Nat} (hsp : Split N T todo)
    (f : Nat → μ → α → Res (μ × α)) (mem : Nat → μ) (acc : Nat → α) {sched sched' : List Nat}
    (hc : Complete T todo sched) (hc' : Complete T todo sched') :
    SameOutcome (Par.run f { mem := mem, acc := acc, todo := todo } sched)
      (Par.run f { mem := mem, acc := acc, todo := todo } sched') :=
  Par.run_same hsp.disjoint.disj hsp.idle hc hc'


set_option linter.unusedSectionVars false

variable {R D S : Type _} {k n : Nat}
variable [Zero R] [One R] [Add R] [Sub R] [Mul R] [Div R] [Pow R Nat] [NatCast R] [IntCast R]
  [LE R] [DecidableLE R] [LT R] [DecidableLT R] [DecidableEq R]
  [Zero D] [Add D] [Sub D] [Mul D] [Div D] [NatCast D] [LE D] [DecidableLE D] [LT D] [DecidableLT D]

/-! ### Unpruned k-means -/

section Kmeans
open Kmeans

theorem iteration_same {dist : Row R n → Row R n → D} {big : D} {data : Nat → Row R n} {N nt : Nat}
    (hsp : Split N (Partition.effThreads nt N) (threadRows N nt)) {sched sched' : List Nat}
    (hc : Complete (Partition.effThreads nt N) (threadRows N nt) sched)
    (hc' : Complete (Partition.effThreads nt N) (threadRows N nt) sched') (s : KState R k n) :
    SameOutcome (iteration dist big data N nt sched s) (iteration dist big data N nt sched' s) := by
  unfold iteration
  exact (hsp.same _ _ _ hc hc').elim (fun a => .refl _) .fail

theorem loop_same {dist : Row R n → Row R n → D} {big : D} {data : Nat → Row R n} {N nt : Nat}
    {tol : R} {maxIters : Nat}
    (hsp : Split N (Partition.effThreads nt N) (threadRows N nt)) {sched sched' : Nat → List Nat}
    (hc : ∀ i, Complete (Partition.effThreads nt N) (threadRows N nt) (sched i))
    (hc' : ∀ i, Complete (Partition.effThreads nt N) (threadRows N nt) (sched' i))
    (fuel iter : Nat) (s : KState R k n) :
    SameOutcome (loop dist big data N nt tol maxIters sched fuel iter s)
      (loop dist big data N nt tol maxIters sched' fuel iter s) := by
  induction fuel generalizing iter s with
  | zero => exact .refl _
  | succ fuel ih =>
    unfold loop
    dsimp only
    split
    · refine (iteration_same hsp (hc iter) (hc' iter) _).elim (fun a => ?_) .fail
      dsimp only
      split
      · exact .refl _
      · exact ih _ _
    · exact .refl _

theorem run_same {dist : Row R n → Row R n → D} {big : D} {data : Nat → Row R n} {N nt : Nat}
    {tol : R} {maxIters : Nat}
    (hsp : Split N (Partition.effThreads nt N) (threadRows N nt)) {sched sched' : Nat → List Nat}
    (hc : ∀ i, Complete (Partition.effThreads nt N) (threadRows N nt) (sched i))
    (hc' : ∀ i, Complete (Partition.effThreads nt N) (threadRows N nt) (sched' i))
    (s : KState R k n) :
    SameOutcome (run dist big data N nt tol maxIters sched s)
      (run dist big data N nt tol maxIters sched' s) := loop_same hsp hc hc' _ _ _

end Kmeans

/-! ### Pruned k-means -/

section Prune
open Prune

theorem iterationP_same {dist eucl : Row R n → Row R n → D} {big : D} {data : Nat → Row R n} {N nt : Nat}
    {pi : Bool} (hsp : Split N (Partition.effThreads nt N) (taskRows N nt)) {sched sched' : List Nat}
    (hc : Complete (Partition.effThreads nt N) (taskRows N nt) sched)
    (hc' : Complete (Partition.effThreads nt N) (taskRows N nt) sched') (s : PState R D k n) :
    SameOutcome (iteration dist eucl big data N nt pi sched s)
      (iteration dist eucl big data N nt pi sched' s) := by
  unfold iteration
  exact (hsp.same _ _ _ hc hc').elim (fun a => .refl _) .fail

theorem loopP_same {dist eucl : Row R n → Row R n → D} {big : D} {data : Nat → Row R n} {N nt : Nat}
    {tol : R} {maxIters : Nat}
    (hsp : Split N (Partition.effThreads nt N) (taskRows N nt)) {sched sched' : Nat → List Nat}
    (hc : ∀ i, Complete (Partition.effThreads nt N) (taskRows N nt) (sched i))
    (hc' : ∀ i, Complete (Partition.effThreads nt N) (taskRows N nt) (sched' i))
    (fuel iter : Nat) (s : PState R D k n) :
    SameOutcome (loop dist eucl big data N nt tol maxIters sched fuel iter s)
      (loop dist eucl big data N nt tol maxIters sched' fuel iter s) := by
  induction fuel generalizing iter s with
  | zero => exact .refl _
  | succ fuel ih =>
    unfold loop pass
    split
    · cases computeDm eucl big s with
      | error e => exact .fail _ _
      | ok s1 =>
        dsimp only
        refine (iterationP_same hsp (hc iter) (hc' iter) _).elim (fun a => ?_) .fail
        dsimp only
        split
        · exact .refl _
        · exact ih _ _
    · exact .refl _

theorem runP_same {dist eucl : Row R n → Row R n → D} {big : D} {data : Nat → Row R n} {N nt : Nat}
    {tol : R} {maxIters : Nat}
    (hsp : Split N (Partition.effThreads nt N) (taskRows N nt)) {sched sched' : Nat → List Nat}
    (hc : ∀ i, Complete (Partition.effThreads nt N) (taskRows N nt) (sched i))
    (hc' : ∀ i, Complete (Partition.effThreads nt N) (taskRows N nt) (sched' i))
    (s : PState R D k n) :
    SameOutcome (run dist eucl big data N nt tol maxIters sched s)
      (run dist eucl big data N nt tol maxIters sched' s) := by
  unfold run
  split
  · exact (iterationP_same hsp (hc 1) (hc' 1) _).elim (fun a => loopP_same hsp hc hc' _ _ _) .fail
  · exact .refl _

end Prune

/-! ### k-means++ -/

section Kpp
open Init

theorem kppPass_same {dist : Row R n → Row R n → D} {data : Nat → Row R n} {N T : Nat}
    {todo : Nat → List Nat} (hsp : Split N T todo) {sched sched' : List Nat}
    (hc : Complete T todo sched) (hc' : Complete T todo sched') (ci : Fin k) (s : Kpp R D k n) :
    SameOutcome (kppPass dist data T todo sched ci s) (kppPass dist data T todo sched' ci s) := by
  unfold kppPass
  exact (hsp.same _ _ _ hc hc').elim (fun a => .refl _) .fail

theorem kppLoop_same {dist : Row R n → Row R n → D} {data : Nat → Row R n} {N M nt T : Nat}
    {todo : Nat → List Nat} (hsp : Split M T todo) {sched sched' : Nat → List Nat}
    (hc : ∀ i, Complete T todo (sched i)) (hc' : ∀ i, Complete T todo (sched' i)) (u : Nat → D)
    (l : List (Fin k)) (ci : Fin k) (s : Kpp R D k n) :
    SameOutcome (kppLoop dist data N nt T todo sched u l ci s)
      (kppLoop dist data N nt T todo sched' u l ci s) := by
  induction l generalizing ci s with
  | nil =>
    unfold kppLoop
    exact (kppPass_same hsp (hc ci) (hc' ci) ci s).elim (fun a => .refl _) .fail
  | cons c rest ih =>
    unfold kppLoop
    refine (kppPass_same hsp (hc ci) (hc' ci) ci s).elim (fun a => ?_) .fail
    obtain ⟨s', total⟩ := a
    dsimp only
    split
    · split
      · exact ih _ _
      · exact .refl _
    · split
      · exact .refl _
      · split
        · exact ih _ _
        · exact .refl _

theorem kpp_same {dist : Row R n → Row R n → D} {data : Nat → Row R n} {N M nt T : Nat}
    {todo : Nat → List Nat} (hsp : Split M T todo) {sched sched' : Nat → List Nat}
    (hc : ∀ i, Complete T todo (sched i)) (hc' : ∀ i, Complete T todo (sched' i)) (first : Nat)
    (u : Nat → D) (s : Kpp R D k n) :
    SameOutcome (kpp dist data N nt T todo sched first u s) (kpp dist data N nt T todo sched' first u s) := by
  unfold kpp
  split
  · exact .refl _
  · split
    · exact .refl _
    · exact kppLoop_same hsp hc hc' _ _ _ _

end Kpp

/-! ### The pthread engines with initialisation -/

section Pthread
open Omp

theorem pthread_same {dist : Row R n → Row R n → D} {big : D} {data : Nat → Row R n} {N nt : Nat}
    {tol : R} {maxIters : Nat}
    (hsp : Split N (Partition.effThreads nt N) (Kmeans.threadRows N nt))
    {ks ks' sched sched' : Nat → List Nat}
    (hk : ∀ i, Complete (Partition.effThreads nt N) (Kmeans.threadRows N nt) (ks i))
    (hk' : ∀ i, Complete (Partition.effThreads nt N) (Kmeans.threadRows N nt) (ks' i))
    (hc : ∀ i, Complete (Partition.effThreads nt N) (Kmeans.threadRows N nt) (sched i))
    (hc' : ∀ i, Complete (Partition.effThreads nt N) (Kmeans.threadRows N nt) (sched' i))
    (start : Start R D S k n) :
    SameOutcome (pthread dist big data N nt ks tol maxIters sched start)
      (pthread dist big data N nt ks' tol maxIters sched' start) := by
  unfold pthread
  cases start with
  | none c => exact run_same hsp hc hc' _
  | forgy draw seed =>
    dsimp only
    cases Init.forgy draw seed data N nt Clusters.empty with
    | error e => exact .refl _
    | ok c => exact run_same hsp hc hc' _
  | random draw seed =>
    dsimp only
    cases Init.random draw seed data N nt Clusters.empty fun _ => Option.none with
    | error e => exact .refl _
    | ok c => exact run_same hsp hc hc' _
  | kpp first u =>
    dsimp only
    exact (kpp_same hsp hk hk' _ _ _).elim (fun a => run_same hsp hc hc' _) .fail

theorem pthreadP_same {dist eucl : Row R n → Row R n → D} {big : D} {data : Nat → Row R n} {N nt : Nat}
    {tol : R} {maxIters : Nat}
    (hsp : Split N (Partition.effThreads nt N) (Prune.taskRows N nt))
    {ks ks' sched sched' : Nat → List Nat}
    (hk : ∀ i, Complete (Partition.effThreads nt N) (Prune.taskRows N nt) (ks i))
    (hk' : ∀ i, Complete (Partition.effThreads nt N) (Prune.taskRows N nt) (ks' i))
    (hc : ∀ i, Complete (Partition.effThreads nt N) (Prune.taskRows N nt) (sched i))
    (hc' : ∀ i, Complete (Partition.effThreads nt N) (Prune.taskRows N nt) (sched' i))
    (start : Start R D S k n) :
    SameOutcome (pthreadP dist eucl big data N nt ks tol maxIters sched start)
      (pthreadP dist eucl big data N nt ks' tol maxIters sched' start) := by
  unfold pthreadP
  dsimp only
  cases Prune.construct (k := k) big (fun _ _ => (0 : R)) with
  | error e => exact .refl _
  | ok p =>
  cases start with
  | none c => exact runP_same hsp hc hc' _
  | forgy draw seed =>
    dsimp only
    cases Init.forgy draw seed data N nt Clusters.empty with
    | error e => exact .refl _
    | ok c => exact runP_same hsp hc hc' _
  | random draw seed =>
    dsimp only
    cases Init.random draw seed data N nt Clusters.empty fun _ => Option.none with
    | error e => exact .refl _
    | ok c => exact runP_same hsp hc hc' _
  | kpp first u =>
    dsimp only
    exact (kpp_same hsp hk hk' _ _ _).elim (fun a => runP_same hsp hc hc' _) .fail

end Pthread

/-! ### OpenMP -/

section OpenMP
open Omp

theorem omp_loop_same {dist : Row R n → Row R n → D} {big : D} {data : Nat → Row R n} {N T : Nat}
    {owner : Nat → Nat → Nat} {tol : R} {maxIters : Nat} (ho : ∀ i r, r < N → owner i r < T)
    {sched sched' : Nat → List Nat} (hc : ∀ i, Complete T (rows N T (owner i)) (sched i))
    (hc' : ∀ i, Complete T (rows N T (owner i)) (sched' i)) (fuel iter : Nat) (s : Kmeans.KState R k n) :
    SameOutcome (loop dist big data N T owner tol maxIters sched fuel iter s)
      (loop dist big data N T owner tol maxIters sched' fuel iter s) := by
  induction fuel generalizing iter s with
  | zero => exact .refl _
  | succ fuel ih =>
    unfold loop emStep
    dsimp only
    split
    · refine ((split_rows (ho iter)).same _ _ _ (hc iter) (hc' iter)).elim (fun a => ?_) .fail
      dsimp only
      split
      · exact .refl _
      · split
        · exact .refl _
        · exact ih _ _
    · exact .refl _

theorem omp_kppLoop_same {dist : Row R n → Row R n → D} {data : Nat → Row R n} {N T : Nat}
    {owner : Nat → Nat → Nat} (ho : ∀ i r, r < N → owner i r < T)
    {sched sched' : Nat → List Nat} (hc : ∀ i, Complete T (rows N T (owner i)) (sched i))
    (hc' : ∀ i, Complete T (rows N T (owner i)) (sched' i)) (u : Nat → D)
    (l : List (Fin k)) (ci : Fin k) (s : Init.Kpp R D k n) :
    SameOutcome (kppLoop dist data N T owner sched u l ci s)
      (kppLoop dist data N T owner sched' u l ci s) := by
  induction l generalizing ci s with
  | nil =>
    unfold kppLoop
    exact (kppPass_same (split_rows (ho ci)) (hc ci) (hc' ci) ci s).elim (fun a => .refl _) .fail
  | cons c rest ih =>
    unfold kppLoop
    refine (kppPass_same (split_rows (ho ci)) (hc ci) (hc' ci) ci s).elim (fun a => ?_) .fail
    obtain ⟨s', total⟩ := a
    dsimp only
    split
    · exact ih _ _
    · exact .refl _

theorem omp_kpp_same {dist : Row R n → Row R n → D} {data : Nat → Row R n} {N T : Nat}
    {owner : Nat → Nat → Nat} (ho : ∀ i r, r < N → owner i r < T)
    {sched sched' : Nat → List Nat} (hc : ∀ i, Complete T (rows N T (owner i)) (sched i))
    (hc' : ∀ i, Complete T (rows N T (owner i)) (sched' i)) (first : Nat) (u : Nat → D)
    (s : Init.Kpp R D k n) :
    SameOutcome (Omp.kpp dist data N T owner sched first u s)
      (Omp.kpp dist data N T owner sched' first u s) := by
  unfold Omp.kpp
  split
  · exact .refl _
  · exact omp_kppLoop_same ho hc hc' _ _ _ _

theorem omp_init_same {dist : Row R n → Row R n → D} {big : D} {data : Nat → Row R n} {N T : Nat}
    {owner : Nat → Nat → Nat} (ho : ∀ i r, r < N → owner i r < T)
    {sched sched' : Nat → List Nat} (hc : ∀ i, Complete T (rows N T (owner i)) (sched i))
    (hc' : ∀ i, Complete T (rows N T (owner i)) (sched' i)) (start : Start R D S k n) :
    SameOutcome (initState dist big data N T owner sched start)
      (initState dist big data N T owner sched' start) := by
  unfold initState
  cases start with
  | none c => exact .refl _
  | forgy draw seed => exact .refl _
  | random draw seed => exact .refl _
  | kpp first u =>
    dsimp only
    exact (omp_kpp_same ho hc hc' _ _ _).elim (fun a => .refl _) .fail

theorem omp_same {dist : Row R n → Row R n → D} {big : D} {data : Nat → Row R n} {N T : Nat}
    {ko owner : Nat → Nat → Nat} {tol : R} {maxIters : Nat} (hko : ∀ i r, r < N → ko i r < T)
    (ho : ∀ i r, r < N → owner i r < T) {ks ks' sched sched' : Nat → List Nat}
    (hk : ∀ i, Complete T (rows N T (ko i)) (ks i)) (hk' : ∀ i, Complete T (rows N T (ko i)) (ks' i))
    (hc : ∀ i, Complete T (rows N T (owner i)) (sched i))
    (hc' : ∀ i, Complete T (rows N T (owner i)) (sched' i)) (start : Start R D S k n) :
    SameOutcome (compute dist big data N T ko ks owner tol maxIters sched start)
      (compute dist big data N T ko ks' owner tol maxIters sched' start) := by
  unfold compute run
  split
  · exact .refl _
  · exact (omp_init_same hko hk hk' start).elim (fun a => omp_loop_same ho hc hc' _ _ _) .fail

theorem omp_loopP_same {dist eucl : Row R n → Row R n → D} {big : D} {data : Nat → Row R n} {N T : Nat}
    {owner : Nat → Nat → Nat} {tol : R} {maxIters : Nat} (ho : ∀ i r, r < N → owner i r < T)
    {sched sched' : Nat → List Nat} (hc : ∀ i, Complete T (rows N T (owner i)) (sched i))
    (hc' : ∀ i, Complete T (rows N T (owner i)) (sched' i)) (fuel iter : Nat) (s : Prune.PState R D k n) :
    SameOutcome (loopP dist eucl big data N T owner tol maxIters sched fuel iter s)
      (loopP dist eucl big data N T owner tol maxIters sched' fuel iter s) := by
  induction fuel generalizing iter s with
  | zero => exact .refl _
  | succ fuel ih =>
    unfold loopP emStepP
    split
    · cases Prune.computeDm eucl big s with
      | error e => exact .refl _
      | ok s1 =>
        dsimp only
        refine ((split_rows (ho iter)).same _ _ _ (hc iter) (hc' iter)).elim (fun a => ?_) .fail
        dsimp only
        split
        · exact .refl _
        · split
          · exact .refl _
          · exact ih _ _
    · exact .refl _

theorem omp_runP_same {dist eucl : Row R n → Row R n → D} {big : D} {data : Nat → Row R n} {N T : Nat}
    {owner : Nat → Nat → Nat} {tol : R} {maxIters : Nat} (ho : ∀ i r, r < N → owner i r < T)
    {sched sched' : Nat → List Nat} (hc : ∀ i, Complete T (rows N T (owner i)) (sched i))
    (hc' : ∀ i, Complete T (rows N T (owner i)) (sched' i)) (s : Prune.PState R D k n) :
    SameOutcome (runP dist eucl big data N T owner tol maxIters sched s)
      (runP dist eucl big data N T owner tol maxIters sched' s) := by
  unfold runP emStepP
  split
  · refine ((split_rows (ho 1)).same _ _ _ (hc 1) (hc' 1)).elim (fun a => ?_) .fail
    dsimp only
    split
    · exact .refl _
    · exact omp_loopP_same ho hc hc' _ _ _
  · exact .refl _

theorem ompP_same {dist eucl : Row R n → Row R n → D} {big : D} {data : Nat → Row R n} {N T : Nat}
    {ko owner : Nat → Nat → Nat} {tol : R} {maxIters : Nat} (hko : ∀ i r, r < N → ko i r < T)
    (ho : ∀ i r, r < N → owner i r < T) {ks ks' sched sched' : Nat → List Nat}
    (hk : ∀ i, Complete T (rows N T (ko i)) (ks i)) (hk' : ∀ i, Complete T (rows N T (ko i)) (ks' i))
    (hc : ∀ i, Complete T (rows N T (owner i)) (sched i))
    (hc' : ∀ i, Complete T (rows N T (owner i)) (sched' i)) (start : Start R D S k n) :
    SameOutcome (computeP dist eucl big data N T ko ks owner tol maxIters sched start)
      (computeP dist eucl big data N T ko ks' owner tol maxIters sched' start) := by
  unfold computeP
  split
  · exact .refl _
  · have : SameOutcome (initStateP dist eucl big data N T ko ks start)
        (initStateP dist eucl big data N T ko ks' start) := by
      unfold initStateP
      cases DistMatrix.create big k with
      | error e => exact .refl _
      | ok m =>
        refine (omp_init_same hko hk hk' start).elim (fun a => .refl _) .fail
    exact this.elim (fun a => omp_runP_same ho hc hc' _) .fail

end OpenMP

/-! ### MPI -/

section Mpi
open Distr

theorem eachRank_same {α : Type _} {f g : Nat → Res α} {np : Nat} (h : ∀ p, p < np → SameOutcome (f p) (g p))
    (dflt : Nat → α) : SameOutcome (eachRank f np dflt) (eachRank g np dflt) := by
  induction np with
  | zero => exact .refl _
  | succ p ih =>
    unfold eachRank
    refine (ih fun q hq => h q (by omega)).elim (fun a => ?_) .fail
    exact (h p (by omega)).elim (fun b => .refl _) .fail

theorem distLoop_same {α : Type _} {np maxIters : Nat} {stop : α → Bool}
    {body body' : Nat → (Nat → α) → Res (Nat → α)} (h : ∀ i x, SameOutcome (body i x) (body' i x))
    (fuel iters : Nat) (procs : Nat → α) :
    SameOutcome (loop np maxIters stop body fuel iters procs)
      (loop np maxIters stop body' fuel iters procs) := by
  induction fuel generalizing iters procs with
  | zero => exact .refl _
  | succ fuel ih =>
    unfold loop
    split
    · refine (h iters procs).elim (fun a => ?_) .fail
      dsimp only
      split
      · exact .refl _
      · split
        · exact .refl _
        · exact ih _ _
    · exact .refl _

theorem distRun_same {dist : Row R n → Row R n → D} {big : D} {data : Nat → Row R n} {g np nt : Nat}
    {tol : R} {maxIters : Nat}
    (hsp : ∀ p, p < np → Split (Partition.procNrow g np p) (Partition.effThreads nt (Partition.procNrow g np p))
      (Kmeans.threadRows (Partition.procNrow g np p) nt))
    {sched sched' : Nat → Nat → List Nat}
    (hc : ∀ i p, p < np → Complete (Partition.effThreads nt (Partition.procNrow g np p))
      (Kmeans.threadRows (Partition.procNrow g np p) nt) (sched i p))
    (hc' : ∀ i p, p < np → Complete (Partition.effThreads nt (Partition.procNrow g np p))
      (Kmeans.threadRows (Partition.procNrow g np p) nt) (sched' i p))
    (procs : Nat → Kmeans.KState R k n) :
    SameOutcome (run dist big data g np nt tol maxIters sched procs)
      (run dist big data g np nt tol maxIters sched' procs) := by
  unfold run
  split
  · exact .refl _
  · refine distLoop_same (fun i x => ?_) _ _ _
    dsimp only
    unfold iteration iterationBy
    have h : ∀ (y : Nat → Kmeans.KState R k n) p, p < np →
        SameOutcome (localStep dist big (procData data g np p) (Partition.procNrow g np p) nt (sched i p) (y p))
          (localStep dist big (procData data g np p) (Partition.procNrow g np p) nt (sched' i p) (y p)) := by
      intro y p hp
      unfold localStep
      exact ((hsp p hp).same _ _ _ (hc i p hp) (hc' i p hp)).elim (fun a => .refl _) .fail
    exact (eachRank_same (h _) _).elim (fun a => .refl _) .fail

theorem distRunP_same {dist eucl : Row R n → Row R n → D} {big : D} {data : Nat → Row R n} {g np nt : Nat}
    {tol : R} {maxIters : Nat}
    (hsp : ∀ p, p < np → Split (Partition.procNrow g np p) (Partition.effThreads nt (Partition.procNrow g np p))
      (Prune.taskRows (Partition.procNrow g np p) nt))
    {sched sched' : Nat → Nat → List Nat}
    (hc : ∀ i p, p < np → Complete (Partition.effThreads nt (Partition.procNrow g np p))
      (Prune.taskRows (Partition.procNrow g np p) nt) (sched i p))
    (hc' : ∀ i p, p < np → Complete (Partition.effThreads nt (Partition.procNrow g np p))
      (Prune.taskRows (Partition.procNrow g np p) nt) (sched' i p))
    (procs : Nat → DProc R D k n) :
    SameOutcome (runPruned dist eucl big data g np nt tol maxIters sched procs)
      (runPruned dist eucl big data g np nt tol maxIters sched' procs) := by
  unfold runPruned
  split
  · exact .refl _
  · refine distLoop_same (fun i x => ?_) _ _ _
    unfold iterationPruned iterationPrunedBy
    have h : ∀ (y : Nat → DProc R D k n) p, p < np →
        SameOutcome (localPass dist eucl big (procData data g np p) (Partition.procNrow g np p) nt
          (decide (i = 0)) (sched i p) (y p))
          (localPass dist eucl big (procData data g np p) (Partition.procNrow g np p) nt
          (decide (i = 0)) (sched' i p) (y p)) := by
      intro y p hp
      unfold localPass
      split
      · exact .refl _
      · exact ((hsp p hp).same _ _ _ (hc i p hp) (hc' i p hp)).elim (fun a => .refl _) .fail
    exact (eachRank_same (h _) _).elim (fun a => .refl _) .fail

end Mpi

/-! ### Mini-batch -/

section MiniBatch
open MiniBatch

theorem mb_same {dist : Row R n → Row R n → D} {big : D} {norm : (Fin k → Row R n) → R}
    {data : Nat → Row R n} {N nt mbSize : Nat} {draw : Nat → Nat → R} {tol : R} {maxIters : Nat}
    (hsp : Split N (Partition.effThreads nt N) (Prune.taskRows N nt)) {sched sched' : Nat → List Nat}
    {e e' : List Nat}
    (hc : ∀ i, Complete (Partition.effThreads nt N) (Prune.taskRows N nt) (sched i))
    (hc' : ∀ i, Complete (Partition.effThreads nt N) (Prune.taskRows N nt) (sched' i))
    (he : Complete (Partition.effThreads nt N) (Prune.taskRows N nt) e)
    (he' : Complete (Partition.effThreads nt N) (Prune.taskRows N nt) e') (s : Prune.PState R D k n) :
    SameOutcome (run dist big norm data N nt mbSize draw tol maxIters sched e s)
      (run dist big norm data N nt mbSize draw tol maxIters sched' e' s) := by
  have hl : ∀ (frac : R) (fuel iter : Nat) (s : Prune.PState R D k n),
      SameOutcome (loop dist big norm data N nt draw frac tol sched fuel iter s)
        (loop dist big norm data N nt draw frac tol sched' fuel iter s) := by
    intro frac fuel
    induction fuel with
    | zero => intro iter s; exact .refl _
    | succ fuel ih =>
      intro iter s
      unfold loop iteration
      refine (hsp.same _ _ _ (hc iter) (hc' iter)).elim (fun a => ?_) .fail
      dsimp only
      split
      · exact .refl _
      · split
        · exact .refl _
        · exact ih _ _
  unfold run
  refine (hl _ _ _ _).elim (fun a => ?_) .fail
  obtain ⟨iter, s1⟩ := a
  have hf : SameOutcome (finish dist big data N nt e s1) (finish dist big data N nt e' s1) := by
    unfold finish
    exact (hsp.same _ _ _ he he').elim (fun a => .refl _) .fail
  dsimp only
  exact hf.elim (fun a => .refl _) .fail

end MiniBatch

/-! ### k-medoids -/

section Medoid
open Medoid

theorem medoid_em_same {dist : Row R n → Row R n → D} {big : D} {data : Nat → Row R n} {N nt : Nat}
    (hsp : Split N (Partition.effThreads nt N) (Kmeans.threadRows N nt)) {sched sched' : List Nat}
    (hc : Complete (Partition.effThreads nt N) (Kmeans.threadRows N nt) sched)
    (hc' : Complete (Partition.effThreads nt N) (Kmeans.threadRows N nt) sched') (s : MState R D k n) :
    SameOutcome (emPhase dist big data N nt sched s) (emPhase dist big data N nt sched' s) := by
  unfold emPhase
  exact (hsp.same _ _ _ hc hc').elim (fun a => .refl _) .fail

theorem medoid_same {isForgy : Bool} {dist : Row R n → Row R n → D} {big : D} {data : Nat → Row R n}
    {N nt : Nat} {pick : Fin k → Nat} {draw : Nat → Nat → R} {rate tol : R} {maxIters : Nat}
    (hsp : Split N (Partition.effThreads nt N) (Kmeans.threadRows N nt))
    {s0 s0' : List Nat} {s1 s1' s2 s2' : Nat → List Nat}
    (h0 : Complete (Partition.effThreads nt N) (Kmeans.threadRows N nt) s0)
    (h0' : Complete (Partition.effThreads nt N) (Kmeans.threadRows N nt) s0')
    (h1 : ∀ i, Complete (Partition.effThreads nt N) (Kmeans.threadRows N nt) (s1 i))
    (h1' : ∀ i, Complete (Partition.effThreads nt N) (Kmeans.threadRows N nt) (s1' i))
    (h2 : ∀ i, Complete (Partition.effThreads nt N) (Kmeans.threadRows N nt) (s2 i))
    (h2' : ∀ i, Complete (Partition.effThreads nt N) (Kmeans.threadRows N nt) (s2' i)) :
    SameOutcome (run isForgy dist big data N nt pick draw rate tol maxIters s0 s1 s2)
      (run isForgy dist big data N nt pick draw rate tol maxIters s0' s1' s2') := by
  have hl : ∀ (rt : R) (fuel iter : Nat) (s : MState R D k n),
      SameOutcome (loop dist big data N nt draw rt tol maxIters s1 s2 fuel iter s)
        (loop dist big data N nt draw rt tol maxIters s1' s2' fuel iter s) := by
    intro rt fuel
    induction fuel with
    | zero => intro iter s; exact .refl _
    | succ fuel ih =>
      intro iter s
      have hi : SameOutcome (iteration dist big data N nt (draw iter) rt (s1 iter) (s2 iter) s)
          (iteration dist big data N nt (draw iter) rt (s1' iter) (s2' iter) s) := by
        unfold iteration
        have hch : SameOutcome (choose dist big data N nt (draw iter) rt (s1 iter) s)
            (choose dist big data N nt (draw iter) rt (s1' iter) s) := by
          unfold choose
          exact (hsp.same _ _ _ (h1 iter) (h1' iter)).elim (fun a => .refl _) .fail
        refine hch.elim (fun a => ?_) .fail
        dsimp only
        split
        · exact (medoid_em_same hsp (h2 iter) (h2' iter) _).elim (fun a => .refl _) .fail
        · exact .refl _
      unfold loop
      split
      · refine hi.elim (fun a => ?_) .fail
        obtain ⟨s', b⟩ := a
        cases b with
        | false => exact .refl _
        | true =>
          dsimp only
          split
          · exact .refl _
          · exact ih _ _
      · exact .refl _
  have h : SameOutcome (runInit (k := k) isForgy dist big data N nt pick s0)
      (runInit isForgy dist big data N nt pick s0') := by
    unfold runInit
    split
    · exact medoid_em_same hsp h0 h0' _
    · exact .refl _
  unfold run
  exact h.elim (fun a => hl _ _ _ _) .fail

end Medoid

/-! ### Fuzzy c-means -/

section Fcm
open Fcm

theorem fcm_same {root : R → R} {dist : Row R n → Row R n → Option R} {norm : (Fin k → Row R n) → R}
    {dmin : R} {data : Nat → Row R n} {N nt fuzz : Nat} {tol : R} {maxIters : Nat}
    (hsp : Split N (Partition.effThreads nt N) (Kmeans.threadRows N nt))
    {s1 s1' s2 s2' : Nat → List Nat}
    (h1 : ∀ i, Complete (Partition.effThreads nt N) (Kmeans.threadRows N nt) (s1 i))
    (h1' : ∀ i, Complete (Partition.effThreads nt N) (Kmeans.threadRows N nt) (s1' i))
    (h2 : ∀ i, Complete (Partition.effThreads nt N) (Kmeans.threadRows N nt) (s2 i))
    (h2' : ∀ i, Complete (Partition.effThreads nt N) (Kmeans.threadRows N nt) (s2' i))
    (start : Start R S k n) :
    SameOutcome (run root dist norm dmin data N nt fuzz tol maxIters s1 s2 start)
      (run root dist norm dmin data N nt fuzz tol maxIters s1' s2' start) := by
  have hl : ∀ (fuel iter : Nat) (s : FState R k n),
      SameOutcome (loop root dist norm data N nt fuzz tol maxIters s1 s2 fuel iter s)
        (loop root dist norm data N nt fuzz tol maxIters s1' s2' fuel iter s) := by
    intro fuel
    induction fuel with
    | zero => intro iter s; exact .refl _
    | succ fuel ih =>
      intro iter s
      have hi : SameOutcome (iteration root dist data N nt fuzz (s1 iter) (s2 iter) s)
          (iteration root dist data N nt fuzz (s1' iter) (s2' iter) s) := by
        unfold iteration
        refine (hsp.same _ _ _ (h1 iter) (h1' iter)).elim (fun a => ?_) .fail
        dsimp only
        exact (hsp.same _ _ _ (h2 iter) (h2' iter)).elim (fun a => .refl _) .fail
      unfold loop
      split
      · refine hi.elim (fun a => ?_) .fail
        dsimp only
        split
        · exact .refl _
        · exact ih _ _
      · exact .refl _
  unfold run
  split
  · exact .refl _
  · split
    · exact .refl _
    · exact (hl _ _ _).elim (fun a => .refl _) .fail

end Fcm

/-! ### Scaled k-means -/

section Skmeans
open Skmeans

theorem skmeans_same {dist : Row R n → Row R n → D} {bigD : D} {big tiny : R} {data : Nat → Row R n}
    {N nt : Nat} {tol : R} {maxIters : Nat}
    (hsp : Split N (Partition.effThreads nt N) (Kmeans.threadRows N nt))
    {s1 s1' s2 s2' : List Nat} {sched sched' : Nat → List Nat}
    (h1 : Complete (Partition.effThreads nt N) (Kmeans.threadRows N nt) s1)
    (h1' : Complete (Partition.effThreads nt N) (Kmeans.threadRows N nt) s1')
    (h2 : Complete (Partition.effThreads nt N) (Kmeans.threadRows N nt) s2)
    (h2' : Complete (Partition.effThreads nt N) (Kmeans.threadRows N nt) s2')
    (hc : ∀ i, Complete (Partition.effThreads nt N) (Kmeans.threadRows N nt) (sched i))
    (hc' : ∀ i, Complete (Partition.effThreads nt N) (Kmeans.threadRows N nt) (sched' i))
    (init : (Nat → Row R n) → Kmeans.KState R k n) :
    SameOutcome (run dist bigD big tiny data N nt tol maxIters s1 s2 sched init)
      (run dist bigD big tiny data N nt tol maxIters s1' s2' sched' init) := by
  have h : SameOutcome (preprocess big tiny data N nt s1 s2) (preprocess big tiny data N nt s1' s2') := by
    unfold preprocess
    refine (hsp.same _ _ _ h1 h1').elim (fun a => ?_) .fail
    dsimp only
    exact (hsp.same _ _ _ h2 h2').elim (fun a => .refl _) .fail
  unfold run
  refine h.elim (fun a => ?_) .fail
  dsimp only
  split
  · exact run_same hsp hc hc' _
  · exact .refl _

end Skmeans

/-! ### Hierarchical clustering, x-means, g-means -/

section Hier
open Hclust

theorem forEach_same {σ ι : Type _} {f g : σ → ι → Res σ} (h : ∀ s i, SameOutcome (f s i) (g s i))
    (l : List ι) (s : σ) : SameOutcome (forEach f l s) (forEach g l s) := by
  induction l generalizing s with
  | nil => exact .refl _
  | cons i l ih =>
    unfold forEach
    exact (h s i).elim (fun a => ih a) .fail

theorem h_iterations_same {c : Cfg R D n}
    (hsp : Split c.nrow (Partition.effThreads c.reqThreads c.nrow) (Kmeans.threadRows c.nrow c.reqThreads))
    {sched sched' : Nat → List Nat}
    (hc : ∀ i, Complete (Partition.effThreads c.reqThreads c.nrow)
      (Kmeans.threadRows c.nrow c.reqThreads) (sched i))
    (hc' : ∀ i, Complete (Partition.effThreads c.reqThreads c.nrow)
      (Kmeans.threadRows c.nrow c.reqThreads) (sched' i)) (s : St R n) :
    SameOutcome (iterations c sched s) (iterations c sched' s) := by
  unfold iterations
  refine forEach_same (fun s i => ?_) _ _
  unfold iteration
  exact (hsp.same _ _ _ (hc i) (hc' i)).elim (fun a => .refl _) .fail

theorem hclust_same {c : Cfg R D n} {it : HInit R n} {fuel : Nat}
    (hsp : Split c.nrow (Partition.effThreads c.reqThreads c.nrow) (Kmeans.threadRows c.nrow c.reqThreads))
    {sched sched' : Nat → Nat → List Nat}
    (hc : ∀ t i, Complete (Partition.effThreads c.reqThreads c.nrow)
      (Kmeans.threadRows c.nrow c.reqThreads) (sched t i))
    (hc' : ∀ t i, Complete (Partition.effThreads c.reqThreads c.nrow)
      (Kmeans.threadRows c.nrow c.reqThreads) (sched' t i)) :
    SameOutcome (run c it sched fuel) (run c it sched' fuel) := by
  have hl : ∀ (fuel t : Nat) (s : St R n), SameOutcome (loop c sched fuel t s) (loop c sched' fuel t s) := by
    intro fuel
    induction fuel with
    | zero => intro t s; exact .refl _
    | succ fuel ih =>
      intro t s
      unfold loop
      refine (h_iterations_same hsp (hc t) (hc' t) s).elim (fun a => ?_) .fail
      dsimp only
      split
      · exact .refl _
      · split
        · exact .refl _
        · split
          · exact .refl _
          · exact ih _ _
  unfold run
  split
  · exact .refl _
  · split
    · exact .refl _
    · exact (hl _ _ _).elim (fun a => .refl _) .fail

theorem xmeans_same {alg : Xmeans.Alg} {c : Cfg R D n} {it : HInit R n} {fuel : Nat}
    {dec : Nat → List Nat → List Nat}
    (hsp : Split c.nrow (Partition.effThreads c.reqThreads c.nrow) (Kmeans.threadRows c.nrow c.reqThreads))
    {sched sched' : Nat → Nat → List Nat}
    (hc : ∀ t i, Complete (Partition.effThreads c.reqThreads c.nrow)
      (Kmeans.threadRows c.nrow c.reqThreads) (sched t i))
    (hc' : ∀ t i, Complete (Partition.effThreads c.reqThreads c.nrow)
      (Kmeans.threadRows c.nrow c.reqThreads) (sched' t i)) :
    SameOutcome (Xmeans.run alg c it dec sched fuel) (Xmeans.run alg c it dec sched' fuel) := by
  have hit : ∀ (t : Nat) (s : Xmeans.XSt R n),
      SameOutcome (Xmeans.iterate alg c (sched t) s) (Xmeans.iterate alg c (sched' t) s) := by
    intro t s
    unfold Xmeans.iterate
    split
    · exact .refl _
    · exact (h_iterations_same hsp (hc t) (hc' t) s.h).elim (fun a => .refl _) .fail
  have hl : ∀ (fuel t : Nat) (s : Xmeans.XSt R n),
      SameOutcome (Xmeans.loop alg c dec sched fuel t s) (Xmeans.loop alg c dec sched' fuel t s) := by
    intro fuel
    induction fuel with
    | zero => intro t s; exact .refl _
    | succ fuel ih =>
      intro t s
      unfold Xmeans.loop
      split
      · exact .refl _
      · refine (hit t _).elim (fun a => ?_) .fail
        dsimp only
        split
        · exact .refl _
        · split
          · exact .refl _
          · split
            · exact .refl _
            · split
              · exact .refl _
              · exact ih _ _
  unfold Xmeans.run
  split
  · exact .refl _
  · exact (hl _ _ _).elim (fun a => .refl _) .fail

end Hier

/-! ### Several k-means++ starts -/

section MultiStart
open MultiStart

theorem multistart_same {keeps : Bool} {dist : Row R n → Row R n → D} {big : D} {data : Nat → Row R n}
    {N nt T M : Nat} {todo : Nat → List Nat} (hsp : Split M T todo) {w w' : Nat → Draws D}
    (hf : ∀ i, (w i).first = (w' i).first) (hu : ∀ i, (w i).u = (w' i).u)
    (hc : ∀ i j, Complete T todo ((w i).sched j)) (hc' : ∀ i j, Complete T todo ((w' i).sched j))
    (nstart : Nat) :
    SameOutcome (kmeansPP (R := R) (k := k) keeps dist big data N nt T todo w nstart)
      (kmeansPP keeps dist big data N nt T todo w' nstart) := by
  have hi : ∀ (i : Nat) (s : St R D k n), SameOutcome (St.init keeps dist data N nt T todo (w i) s)
      (St.init keeps dist data N nt T todo (w' i) s) := by
    intro i s
    unfold St.init
    split
    · exact .refl _
    · rw [hf i, hu i]
      exact (kpp_same hsp (hc i) (hc' i) _ _ _).elim (fun a => .refl _) .fail
  have hl : ∀ (l : List Nat) (s : St R D k n) (best : Nat × D × Copy R k n),
      SameOutcome (startLoop keeps dist big data N nt T todo w l s best)
        (startLoop keeps dist big data N nt T todo w' l s best) := by
    intro l
    induction l with
    | nil => intro s best; exact .refl _
    | cons i l ih =>
      intro s best
      unfold startLoop St.reinit
      refine (hi i _).elim (fun a => ?_) .fail
      dsimp only
      split
      · exact .refl _
      · exact ih _ _
  unfold kmeansPP
  refine (hi 0 _).elim (fun a => ?_) .fail
  dsimp only
  split
  · exact .refl _
  · split
    · exact .refl _
    · exact hl _ _ _

end MultiStart

end Knor
