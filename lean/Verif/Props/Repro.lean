import Mathlib.Algebra.Order.Field.Rat
import Verif.Lemmas.ReproRuns
import Verif.Lemmas.Distr

/-!
# C77: repeated runs give the same answer, whatever the arithmetic

README.md and the documentation of `seed` promise the same answer over multiple runs.  Two runs on the
same input with the same random draws and the same number of threads differ only in how the operating
system interleaves the threads.  The theorems of this file quantify over two arbitrary interleavings
`sched`, `sched'` that let every worker finish, and say that both runs have the same outcome
(`SameOutcome`, Spec/Repro.lean).

The scalar type `R` and the distance type `D` are arbitrary types with arbitrary operations: no law of
arithmetic is assumed, so the theorems cover rounding, overflow and NaN, hence the `double` of the code.
In contrast C10 and C25 (independence of the *number* of threads) need exact addition;
`C77_thread_count_matters_when_addition_rounds` shows that this is not an artefact of the proof.
-/

namespace Knor.Repro

open Knor Knor.Par Knor.Partition

/-! ### An arithmetic that rounds, for the examples -/

/-- A number with three significant bits, or NaN (`none`). -/
structure Fl where
  val : Option ℚ
deriving DecidableEq

namespace Fl

/-- Round to the nearest multiple of `1/2`, `1` or `2`, depending on the size. -/
def rnd (q : ℚ) : ℚ :=
  let g : ℚ := if -4 < q ∧ q < 4 then 1/2 else if -8 < q ∧ q < 8 then 1 else 2
  g * (Rat.floor (q / g + 1/2) : Int)

/-- A rounded binary operation. -/
def op (f : ℚ → ℚ → Option ℚ) (x y : Fl) : Fl :=
  match x.val, y.val with
  | some a, some b => ⟨(f a b).map rnd⟩
  | _, _ => ⟨none⟩

instance : Zero Fl := ⟨⟨some 0⟩⟩
instance : One Fl := ⟨⟨some 1⟩⟩
instance : Add Fl := ⟨op fun a b => some (a + b)⟩
instance : Sub Fl := ⟨op fun a b => some (a - b)⟩
instance : Mul Fl := ⟨op fun a b => some (a * b)⟩
instance : Div Fl := ⟨op fun a b => if b = 0 then none else some (a / b)⟩
instance : Pow Fl Nat := ⟨fun x m => (List.replicate m x).foldl (· * ·) 1⟩
instance : NatCast Fl := ⟨fun m => ⟨some (rnd m)⟩⟩
instance : IntCast Fl := ⟨fun m => ⟨some (rnd m)⟩⟩

/-- A comparison, false on NaN. -/
def cmp (p : ℚ → ℚ → Bool) (x y : Fl) : Bool :=
  match x.val, y.val with
  | some a, some b => p a b
  | _, _ => false

instance : LE Fl := ⟨fun x y => cmp (fun a b => a ≤ b) x y = true⟩
instance : LT Fl := ⟨fun x y => cmp (fun a b => a < b) x y = true⟩
instance : DecidableLE Fl := fun x y => inferInstanceAs (Decidable (cmp _ x y = true))
instance : DecidableLT Fl := fun x y => inferInstanceAs (Decidable (cmp _ x y = true))

/-- The number nearest to `q`. -/
def of (q : ℚ) : Fl := ⟨some (rnd q)⟩

/-- Addition of this type is not associative. -/
example : of 8 + of 1 + of 1 ≠ of 8 + (of 1 + of 1) := by decide +kernel

end Fl

/-- Distance of the examples. -/
def demoDist (x y : Row Fl 1) : Fl := if x 0 ≤ y 0 then y 0 - x 0 else x 0 - y 0
/-- Rows of the examples: 8, 0, 1, 1. -/
def demoData (r : Nat) : Row Fl 1 := fun _ => if r = 0 then .of 8 else if r = 1 then .of 0 else .of 1
/-- First interleaving of two threads with two rows each. -/
def demoSched (_ : Nat) : List Nat := [0, 0, 1, 1]
/-- Second interleaving. -/
def demoSched' (_ : Nat) : List Nat := [1, 0, 1, 0]

theorem demo_complete (i : Nat) :
    Complete (effThreads 2 4) (Kmeans.threadRows 4 2) (demoSched i) ∧
    Complete (effThreads 2 4) (Kmeans.threadRows 4 2) (demoSched' i) := by
  constructor <;> intro t ht
  all_goals
    have : t = 0 ∨ t = 1 := by
      have : effThreads 2 4 = 2 := by decide
      omega
    rcases this with rfl | rfl <;> (first | unfold demoSched | unfold demoSched') <;> decide

theorem demo_completeP (i : Nat) :
    Complete (effThreads 2 4) (Prune.taskRows 4 2) (demoSched i) ∧
    Complete (effThreads 2 4) (Prune.taskRows 4 2) (demoSched' i) := by
  have : Prune.taskRows 4 2 = Kmeans.threadRows 4 2 :=
    funext (Prune.taskRows_eq (by omega) (by omega) (by omega))
  rw [this]; exact demo_complete i

set_option linter.unusedSectionVars false

variable {R D S : Type _} {k n : Nat}
variable [Zero R] [One R] [Add R] [Sub R] [Mul R] [Div R] [Pow R Nat] [NatCast R] [IntCast R]
  [LE R] [DecidableLE R] [LT R] [DecidableLT R] [DecidableEq R]
  [Zero D] [Add D] [Sub D] [Mul D] [Div D] [NatCast D] [LE D] [DecidableLE D] [LT D] [DecidableLT D]

/-- **C77.** A whole run of `kmeans_coordinator` (unpruned k-means), including any of its four initialisations. -/
theorem C77_kmeans_reproducible
    (dist : Row R n → Row R n → D) (big : D) (data : Nat → Row R n) (N nt : Nat) (tol : R)
    (maxIters : Nat) (hn : 0 < N) (hnt : 0 < nt) (hlt : N < 4294967296)
    (ks ks' sched sched' : Nat → List Nat)
    (hk : ∀ i, Complete (effThreads nt N) (Kmeans.threadRows N nt) (ks i)) (hk' : ∀ i, Complete (effThreads nt N) (Kmeans.threadRows N nt) (ks' i))
    (hc : ∀ i, Complete (effThreads nt N) (Kmeans.threadRows N nt) (sched i))
    (hc' : ∀ i, Complete (effThreads nt N) (Kmeans.threadRows N nt) (sched' i))
    (start : Omp.Start R D S k n) :
    SameOutcome (Omp.pthread dist big data N nt ks tol maxIters sched start)
      (Omp.pthread dist big data N nt ks' tol maxIters sched' start) :=
  pthread_same (Kmeans.split_threadRows hn hnt hlt) hk hk' hc hc' start

example (start : Omp.Start Fl Fl Unit 2 1) :
    SameOutcome (Omp.pthread demoDist (.of 100) demoData 4 2 demoSched (.of 0) 5 demoSched' start)
      (Omp.pthread demoDist (.of 100) demoData 4 2 demoSched' (.of 0) 5 demoSched start) :=
  C77_kmeans_reproducible demoDist (.of 100) demoData 4 2 (.of 0) 5 (by decide) (by decide) (by decide)
    demoSched demoSched' demoSched' demoSched (fun i => (demo_complete i).1) (fun i => (demo_complete i).2)
    (fun i => (demo_complete i).2) (fun i => (demo_complete i).1) start

/-- The same with one iteration from given centroids, evaluated: both runs return, with the same
assignment and centroids. -/
example : ((Omp.pthread (S := Unit) demoDist (.of 100) demoData 4 2 demoSched (.of 0) 1 demoSched
      (.none fun c _ => if c = (0 : Fin 2) then .of 0 else .of 8)).map
        fun r => ((List.range 4).map r.state.assign, r.state.cltrs.means 0 0, r.state.cltrs.means 1 0))
      = .ok ([some 1, some 0, some 0, some 0], .of (1/2), .of 8) ∧
    ((Omp.pthread (S := Unit) demoDist (.of 100) demoData 4 2 demoSched (.of 0) 1 demoSched'
      (.none fun c _ => if c = (0 : Fin 2) then .of 0 else .of 8)).map
        fun r => ((List.range 4).map r.state.assign, r.state.cltrs.means 0 0, r.state.cltrs.means 1 0))
      = .ok ([some 1, some 0, some 0, some 0], .of (1/2), .of 8) := by
  constructor <;> decide +kernel

/-- **C77.** A whole run of `kmeans_task_coordinator` (k-means with pruning). -/
theorem C77_pruned_reproducible
    (dist eucl : Row R n → Row R n → D) (big : D) (data : Nat → Row R n) (N nt : Nat) (tol : R)
    (maxIters : Nat) (hn : 0 < N) (hnt : 0 < nt) (hlt : N + 8192 < 4294967296)
    (ks ks' sched sched' : Nat → List Nat)
    (hk : ∀ i, Complete (effThreads nt N) (Prune.taskRows N nt) (ks i)) (hk' : ∀ i, Complete (effThreads nt N) (Prune.taskRows N nt) (ks' i))
    (hc : ∀ i, Complete (effThreads nt N) (Prune.taskRows N nt) (sched i))
    (hc' : ∀ i, Complete (effThreads nt N) (Prune.taskRows N nt) (sched' i))
    (start : Omp.Start R D S k n) :
    SameOutcome (Omp.pthreadP dist eucl big data N nt ks tol maxIters sched start)
      (Omp.pthreadP dist eucl big data N nt ks' tol maxIters sched' start) :=
  pthreadP_same (Prune.split_taskRows hn hnt hlt) hk hk' hc hc' start

example (start : Omp.Start Fl Fl Unit 2 1) :
    SameOutcome (Omp.pthreadP demoDist demoDist (.of 100) demoData 4 2 demoSched (.of 0) 5 demoSched' start)
      (Omp.pthreadP demoDist demoDist (.of 100) demoData 4 2 demoSched' (.of 0) 5 demoSched start) :=
  C77_pruned_reproducible demoDist demoDist (.of 100) demoData 4 2 (.of 0) 5 (by decide) (by decide)
    (by decide) demoSched demoSched' demoSched' demoSched (fun i => (demo_completeP i).1)
    (fun i => (demo_completeP i).2) (fun i => (demo_completeP i).2) (fun i => (demo_completeP i).1) start

/-- **C77.** k-means++ on its own, with the rows of either kind of coordinator. -/
theorem C77_kmeanspp_reproducible
    (dist : Row R n → Row R n → D) (data : Nat → Row R n) (N nt : Nat)
    (hn : 0 < N) (hnt : 0 < nt) (hlt : N < 4294967296) (sched sched' : Nat → List Nat)
    (hc : ∀ i, Complete (effThreads nt N) (Kmeans.threadRows N nt) (sched i))
    (hc' : ∀ i, Complete (effThreads nt N) (Kmeans.threadRows N nt) (sched' i))
    (first : Nat) (u : Nat → D) (s : Init.Kpp R D k n) :
    SameOutcome
      (Init.kpp dist data N nt (effThreads nt N) (Kmeans.threadRows N nt) sched first u s)
      (Init.kpp dist data N nt (effThreads nt N) (Kmeans.threadRows N nt) sched' first u s) :=
  kpp_same (Kmeans.split_threadRows hn hnt hlt) hc hc' first u s

example (u : Nat → Fl) (s : Init.Kpp Fl Fl 3 1) : SameOutcome
    (Init.kpp demoDist demoData 4 2 (effThreads 2 4) (Kmeans.threadRows 4 2) demoSched 3 u s)
    (Init.kpp demoDist demoData 4 2 (effThreads 2 4) (Kmeans.threadRows 4 2) demoSched' 3 u s) :=
  C77_kmeanspp_reproducible demoDist demoData 4 2 (by decide) (by decide) (by decide) _ _
    (fun i => (demo_complete i).1) (fun i => (demo_complete i).2) 3 u s

/-- **C77.** The multi-start k-means++ driver: the best of `nstart` starts is the same one. -/
theorem C77_multistart_reproducible
    (keeps : Bool) (dist : Row R n → Row R n → D) (big : D) (data : Nat → Row R n) (N nt : Nat)
    (hn : 0 < N) (hnt : 0 < nt) (hlt : N + 8192 < 4294967296) (w w' : Nat → MultiStart.Draws D)
    (hf : ∀ i, (w i).first = (w' i).first) (hu : ∀ i, (w i).u = (w' i).u)
    (hc : ∀ i j, Complete (effThreads nt N) (Prune.taskRows N nt) ((w i).sched j))
    (hc' : ∀ i j, Complete (effThreads nt N) (Prune.taskRows N nt) ((w' i).sched j))
    (nstart : Nat) :
    SameOutcome
      (MultiStart.kmeansPP (R := R) (k := k) keeps dist big data N nt (effThreads nt N)
        (Prune.taskRows N nt) w nstart)
      (MultiStart.kmeansPP keeps dist big data N nt (effThreads nt N) (Prune.taskRows N nt) w' nstart) :=
  multistart_same (Prune.split_taskRows hn hnt hlt) hf hu hc hc' nstart

example (first : Nat → Nat) (u : Nat → Nat → Fl) : SameOutcome
    (MultiStart.kmeansPP (R := Fl) (k := 3) true demoDist (.of 100) demoData 4 2 (effThreads 2 4)
      (Prune.taskRows 4 2) (fun i => ⟨first i, u i, demoSched⟩) 6)
    (MultiStart.kmeansPP true demoDist (.of 100) demoData 4 2 (effThreads 2 4)
      (Prune.taskRows 4 2) (fun i => ⟨first i, u i, demoSched'⟩) 6) :=
  C77_multistart_reproducible true demoDist (.of 100) demoData 4 2 (by decide) (by decide) (by decide)
    (fun i => ⟨first i, u i, demoSched⟩) (fun i => ⟨first i, u i, demoSched'⟩) (fun _ => rfl) (fun _ => rfl)
    (fun _ i => (demo_completeP i).1) (fun _ i => (demo_completeP i).2) 6

/-- **C77.** The OpenMP version, for a fixed assignment of rows to threads (`schedule(static)`; the OpenMP
runtime must give the same rows to the same threads and combine the `reduction` of k-means++ in the
same order). -/
theorem C77_omp_reproducible
    (dist : Row R n → Row R n → D) (big : D) (data : Nat → Row R n) (N T : Nat)
    (ko owner : Nat → Nat → Nat) (tol : R) (maxIters : Nat) (hko : ∀ i r, r < N → ko i r < T)
    (ho : ∀ i r, r < N → owner i r < T) (ks ks' sched sched' : Nat → List Nat)
    (hk : ∀ i, Complete T (Omp.rows N T (ko i)) (ks i)) (hk' : ∀ i, Complete T (Omp.rows N T (ko i)) (ks' i))
    (hc : ∀ i, Complete T (Omp.rows N T (owner i)) (sched i))
    (hc' : ∀ i, Complete T (Omp.rows N T (owner i)) (sched' i)) (start : Omp.Start R D S k n) :
    SameOutcome (Omp.compute dist big data N T ko ks owner tol maxIters sched start)
      (Omp.compute dist big data N T ko ks' owner tol maxIters sched' start) :=
  omp_same hko ho hk hk' hc hc' start

/-- Even rows on thread 0, odd rows on thread 1. -/
theorem demo_omp (i : Nat) :
    Complete 2 (Omp.rows 4 2 fun r => r % 2) (demoSched i) ∧
    Complete 2 (Omp.rows 4 2 fun r => r % 2) (demoSched' i) := by
  constructor <;> intro t ht
  all_goals
    have : t = 0 ∨ t = 1 := by omega
    rcases this with rfl | rfl <;> (first | unfold demoSched | unfold demoSched') <;> decide

example (start : Omp.Start Fl Fl Unit 2 1) : SameOutcome
    (Omp.compute demoDist (.of 100) demoData 4 2 (fun _ r => r % 2) demoSched (fun _ r => r % 2)
      (.of 0) 5 demoSched' start)
    (Omp.compute demoDist (.of 100) demoData 4 2 (fun _ r => r % 2) demoSched' (fun _ r => r % 2)
      (.of 0) 5 demoSched start) :=
  C77_omp_reproducible _ _ _ _ _ _ _ _ _ (fun _ r _ => Nat.mod_lt r (by omega))
    (fun _ r _ => Nat.mod_lt r (by omega)) _ _ _ _ (fun i => (demo_omp i).1) (fun i => (demo_omp i).2)
    (fun i => (demo_omp i).2) (fun i => (demo_omp i).1) start

/-- **C77.** The OpenMP version with pruning, with the same proviso. -/
theorem C77_omp_pruned_reproducible
    (dist eucl : Row R n → Row R n → D) (big : D) (data : Nat → Row R n) (N T : Nat)
    (ko owner : Nat → Nat → Nat) (tol : R) (maxIters : Nat) (hko : ∀ i r, r < N → ko i r < T)
    (ho : ∀ i r, r < N → owner i r < T) (ks ks' sched sched' : Nat → List Nat)
    (hk : ∀ i, Complete T (Omp.rows N T (ko i)) (ks i)) (hk' : ∀ i, Complete T (Omp.rows N T (ko i)) (ks' i))
    (hc : ∀ i, Complete T (Omp.rows N T (owner i)) (sched i))
    (hc' : ∀ i, Complete T (Omp.rows N T (owner i)) (sched' i)) (start : Omp.Start R D S k n) :
    SameOutcome (Omp.computeP dist eucl big data N T ko ks owner tol maxIters sched start)
      (Omp.computeP dist eucl big data N T ko ks' owner tol maxIters sched' start) :=
  ompP_same hko ho hk hk' hc hc' start

example (start : Omp.Start Fl Fl Unit 2 1) : SameOutcome
    (Omp.computeP demoDist demoDist (.of 100) demoData 4 2 (fun _ r => r % 2) demoSched (fun _ r => r % 2)
      (.of 0) 5 demoSched' start)
    (Omp.computeP demoDist demoDist (.of 100) demoData 4 2 (fun _ r => r % 2) demoSched' (fun _ r => r % 2)
      (.of 0) 5 demoSched start) :=
  C77_omp_pruned_reproducible _ _ _ _ _ _ _ _ _ _ (fun _ r _ => Nat.mod_lt r (by omega))
    (fun _ r _ => Nat.mod_lt r (by omega)) _ _ _ _ (fun i => (demo_omp i).1) (fun i => (demo_omp i).2)
    (fun i => (demo_omp i).2) (fun i => (demo_omp i).1) start

/-- **C77.** The distributed version.  The sums over the ranks are taken in rank order
(see DESIGN.md for this convention about `MPI_Allreduce`). -/
theorem C77_mpi_reproducible
    (dist : Row R n → Row R n → D) (big : D) (data : Nat → Row R n) (g np nt : Nat) (tol : R)
    (maxIters : Nat) (hnp : 0 < np) (hg : np ≤ g) (hnt : 0 < nt) (hlt : g < 4294967296)
    (sched sched' : Nat → Nat → List Nat)
    (hc : ∀ i p, p < np → Complete (effThreads nt (procNrow g np p))
      (Kmeans.threadRows (procNrow g np p) nt) (sched i p))
    (hc' : ∀ i p, p < np → Complete (effThreads nt (procNrow g np p))
      (Kmeans.threadRows (procNrow g np p) nt) (sched' i p))
    (procs : Nat → Kmeans.KState R k n) :
    SameOutcome (Distr.run dist big data g np nt tol maxIters sched procs)
      (Distr.run dist big data g np nt tol maxIters sched' procs) :=
  distRun_same (fun p hp => Kmeans.split_threadRows (Distr.procNrow_pos hnp hg) hnt (by have := Distr.procNrow_le (g := g) hp; omega))
    hc hc' procs

/-- Two ranks with two rows each, one thread per rank: every schedule with two steps of thread 0. -/
theorem demo_mpi (p : Nat) (hp : p < 2) (l : List Nat) (h : 2 ≤ l.count 0) :
    Complete (effThreads 1 (procNrow 4 2 p)) (Kmeans.threadRows (procNrow 4 2 p) 1) l := by
  have : p = 0 ∨ p = 1 := by omega
  rcases this with rfl | rfl <;>
  · intro t ht
    have : t = 0 := by
      have : effThreads 1 2 = 1 := by decide
      change t < effThreads 1 2 at ht
      omega
    subst this
    exact h

example (procs : Nat → Kmeans.KState Fl 2 1) : SameOutcome
    (Distr.run demoDist (.of 100) demoData 4 2 1 (.of 0) 5 (fun _ _ => [0, 0]) procs)
    (Distr.run demoDist (.of 100) demoData 4 2 1 (.of 0) 5 (fun _ _ => [1, 0, 2, 0]) procs) :=
  C77_mpi_reproducible _ _ _ _ _ _ _ _ (by decide) (by decide) (by decide) (by decide) _ _
    (fun _ p hp => (demo_mpi p hp _ (by decide)))
    (fun _ p hp => (demo_mpi p hp _ (by decide))) procs

/-- **C77.** The distributed version with pruning. -/
theorem C77_mpi_pruned_reproducible
    (dist eucl : Row R n → Row R n → D) (big : D) (data : Nat → Row R n) (g np nt : Nat) (tol : R)
    (maxIters : Nat) (hnp : 0 < np) (hg : np ≤ g) (hnt : 0 < nt) (hlt : g + 8192 < 4294967296)
    (sched sched' : Nat → Nat → List Nat)
    (hc : ∀ i p, p < np → Complete (effThreads nt (procNrow g np p))
      (Prune.taskRows (procNrow g np p) nt) (sched i p))
    (hc' : ∀ i p, p < np → Complete (effThreads nt (procNrow g np p))
      (Prune.taskRows (procNrow g np p) nt) (sched' i p))
    (procs : Nat → Distr.DProc R D k n) :
    SameOutcome (Distr.runPruned dist eucl big data g np nt tol maxIters sched procs)
      (Distr.runPruned dist eucl big data g np nt tol maxIters sched' procs) :=
  distRunP_same (fun p hp => Prune.split_taskRows (Distr.procNrow_pos hnp hg) hnt (by have := Distr.procNrow_le (g := g) hp; omega))
    hc hc' procs

example (procs : Nat → Distr.DProc Fl Fl 2 1) : SameOutcome
    (Distr.runPruned demoDist demoDist (.of 100) demoData 4 2 1 (.of 0) 5 (fun _ _ => [0, 0]) procs)
    (Distr.runPruned demoDist demoDist (.of 100) demoData 4 2 1 (.of 0) 5 (fun _ _ => [1, 0, 2, 0]) procs) :=
  C77_mpi_pruned_reproducible _ _ _ _ _ _ _ _ _ (by decide) (by decide) (by decide) (by decide) _ _
    (fun _ p hp => (by
      rw [show Prune.taskRows (procNrow 4 2 p) 1 = Kmeans.threadRows (procNrow 4 2 p) 1 from
        funext (Prune.taskRows_eq (by omega) (Distr.procNrow_pos (by omega) (by omega))
          (by have := Distr.procNrow_le (g := 4) hp; omega))]
      exact demo_mpi p hp _ (by decide)))
    (fun _ p hp => (by
      rw [show Prune.taskRows (procNrow 4 2 p) 1 = Kmeans.threadRows (procNrow 4 2 p) 1 from
        funext (Prune.taskRows_eq (by omega) (Distr.procNrow_pos (by omega) (by omega))
          (by have := Distr.procNrow_le (g := 4) hp; omega))]
      exact demo_mpi p hp _ (by decide))) procs

/-- **C77.** Mini-batch k-means, with the same draws. -/
theorem C77_minibatch_reproducible
    (dist : Row R n → Row R n → D) (big : D) (norm : (Fin k → Row R n) → R) (data : Nat → Row R n)
    (N nt mbSize : Nat) (draw : Nat → Nat → R) (tol : R) (maxIters : Nat) (hn : 0 < N) (hnt : 0 < nt) (hlt : N + 8192 < 4294967296)
    (sched sched' : Nat → List Nat) (e e' : List Nat)
    (hc : ∀ i, Complete (effThreads nt N) (Prune.taskRows N nt) (sched i))
    (hc' : ∀ i, Complete (effThreads nt N) (Prune.taskRows N nt) (sched' i))
    (he : Complete (effThreads nt N) (Prune.taskRows N nt) e) (he' : Complete (effThreads nt N) (Prune.taskRows N nt) e')
    (s : Prune.PState R D k n) :
    SameOutcome (MiniBatch.run dist big norm data N nt mbSize draw tol maxIters sched e s)
      (MiniBatch.run dist big norm data N nt mbSize draw tol maxIters sched' e' s) :=
  mb_same (Prune.split_taskRows hn hnt hlt) hc hc' he he' s

example (draw : Nat → Nat → Fl) (norm : (Fin 2 → Row Fl 1) → Fl) (s : Prune.PState Fl Fl 2 1) : SameOutcome
    (MiniBatch.run demoDist (.of 100) norm demoData 4 2 3 draw (.of 0) 5 demoSched (demoSched 0) s)
    (MiniBatch.run demoDist (.of 100) norm demoData 4 2 3 draw (.of 0) 5 demoSched' (demoSched' 0) s) :=
  C77_minibatch_reproducible _ _ _ _ _ _ _ _ _ _ (by decide) (by decide) (by decide) _ _ _ _
    (fun i => (demo_completeP i).1) (fun i => (demo_completeP i).2) (demo_completeP 0).1 (demo_completeP 0).2 s

/-- **C77.** k-medoids, with the same draws. -/
theorem C77_medoids_reproducible
    (isForgy : Bool) (dist : Row R n → Row R n → D) (big : D) (data : Nat → Row R n) (N nt : Nat)
    (pick : Fin k → Nat) (draw : Nat → Nat → R) (rate tol : R) (maxIters : Nat) (hn : 0 < N) (hnt : 0 < nt) (hlt : N < 4294967296)
    (s0 s0' : List Nat) (s1 s1' s2 s2' : Nat → List Nat)
    (h0 : Complete (effThreads nt N) (Kmeans.threadRows N nt) s0) (h0' : Complete (effThreads nt N) (Kmeans.threadRows N nt) s0')
    (h1 : ∀ i, Complete (effThreads nt N) (Kmeans.threadRows N nt) (s1 i)) (h1' : ∀ i, Complete (effThreads nt N) (Kmeans.threadRows N nt) (s1' i))
    (h2 : ∀ i, Complete (effThreads nt N) (Kmeans.threadRows N nt) (s2 i)) (h2' : ∀ i, Complete (effThreads nt N) (Kmeans.threadRows N nt) (s2' i)) :
    SameOutcome (Medoid.run isForgy dist big data N nt pick draw rate tol maxIters s0 s1 s2)
      (Medoid.run isForgy dist big data N nt pick draw rate tol maxIters s0' s1' s2') :=
  medoid_same (Kmeans.split_threadRows hn hnt hlt) h0 h0' h1 h1' h2 h2'

example (pick : Fin 2 → Nat) (draw : Nat → Nat → Fl) : SameOutcome
    (Medoid.run true demoDist (.of 100) demoData 4 2 pick draw (.of 1) (.of 0) 5 (demoSched 0) demoSched demoSched')
    (Medoid.run true demoDist (.of 100) demoData 4 2 pick draw (.of 1) (.of 0) 5 (demoSched' 0) demoSched' demoSched) :=
  C77_medoids_reproducible _ _ _ _ _ _ _ _ _ _ _ (by decide) (by decide) (by decide) _ _ _ _ _ _
    (demo_complete 0).1 (demo_complete 0).2 (fun i => (demo_complete i).1) (fun i => (demo_complete i).2)
    (fun i => (demo_complete i).2) (fun i => (demo_complete i).1)

/-- **C77.** Fuzzy c-means. -/
theorem C77_fcm_reproducible
    (root : R → R) (dist : Row R n → Row R n → Option R) (norm : (Fin k → Row R n) → R) (dmin : R)
    (data : Nat → Row R n) (N nt fuzz : Nat) (tol : R) (maxIters : Nat) (hn : 0 < N) (hnt : 0 < nt) (hlt : N < 4294967296)
    (s1 s1' s2 s2' : Nat → List Nat)
    (h1 : ∀ i, Complete (effThreads nt N) (Kmeans.threadRows N nt) (s1 i)) (h1' : ∀ i, Complete (effThreads nt N) (Kmeans.threadRows N nt) (s1' i))
    (h2 : ∀ i, Complete (effThreads nt N) (Kmeans.threadRows N nt) (s2 i)) (h2' : ∀ i, Complete (effThreads nt N) (Kmeans.threadRows N nt) (s2' i))
    (start : Fcm.Start R S k n) :
    SameOutcome (Fcm.run root dist norm dmin data N nt fuzz tol maxIters s1 s2 start)
      (Fcm.run root dist norm dmin data N nt fuzz tol maxIters s1' s2' start) :=
  fcm_same (Kmeans.split_threadRows hn hnt hlt) h1 h1' h2 h2' start

example (norm : (Fin 2 → Row Fl 1) → Fl) (start : Fcm.Start Fl Unit 2 1) : SameOutcome
    (Fcm.run id (fun x y => some (demoDist x y)) norm (.of (1/2)) demoData 4 2 2 (.of 0) 5 demoSched demoSched' start)
    (Fcm.run id (fun x y => some (demoDist x y)) norm (.of (1/2)) demoData 4 2 2 (.of 0) 5 demoSched' demoSched start) :=
  C77_fcm_reproducible _ _ _ _ _ _ _ _ _ _ (by decide) (by decide) (by decide) _ _ _ _
    (fun i => (demo_complete i).1) (fun i => (demo_complete i).2)
    (fun i => (demo_complete i).2) (fun i => (demo_complete i).1) start

/-- **C77.** Scaled k-means. -/
theorem C77_skmeans_reproducible
    (dist : Row R n → Row R n → D) (bigD : D) (big tiny : R) (data : Nat → Row R n) (N nt : Nat) (tol : R)
    (maxIters : Nat) (hn : 0 < N) (hnt : 0 < nt) (hlt : N < 4294967296)
    (s1 s1' s2 s2' : List Nat) (sched sched' : Nat → List Nat)
    (h1 : Complete (effThreads nt N) (Kmeans.threadRows N nt) s1) (h1' : Complete (effThreads nt N) (Kmeans.threadRows N nt) s1')
    (h2 : Complete (effThreads nt N) (Kmeans.threadRows N nt) s2) (h2' : Complete (effThreads nt N) (Kmeans.threadRows N nt) s2')
    (hc : ∀ i, Complete (effThreads nt N) (Kmeans.threadRows N nt) (sched i))
    (hc' : ∀ i, Complete (effThreads nt N) (Kmeans.threadRows N nt) (sched' i))
    (init : (Nat → Row R n) → Kmeans.KState R k n) :
    SameOutcome (Skmeans.run dist bigD big tiny data N nt tol maxIters s1 s2 sched init)
      (Skmeans.run dist bigD big tiny data N nt tol maxIters s1' s2' sched' init) :=
  skmeans_same (Kmeans.split_threadRows hn hnt hlt) h1 h1' h2 h2' hc hc' init

example (init : (Nat → Row Fl 1) → Kmeans.KState Fl 2 1) : SameOutcome
    (Skmeans.run demoDist (.of 100) (.of 100) (.of (-100)) demoData 4 2 (.of 0) 5 (demoSched 0) (demoSched 0)
      demoSched init)
    (Skmeans.run demoDist (.of 100) (.of 100) (.of (-100)) demoData 4 2 (.of 0) 5 (demoSched' 0) (demoSched' 0)
      demoSched' init) :=
  C77_skmeans_reproducible _ _ _ _ _ _ _ _ _ (by decide) (by decide) (by decide) _ _ _ _ _ _
    (demo_complete 0).1 (demo_complete 0).2 (demo_complete 0).1 (demo_complete 0).2
    (fun i => (demo_complete i).1) (fun i => (demo_complete i).2) init

/-- **C77.** Hierarchical clustering. -/
theorem C77_hclust_reproducible
    (c : Hclust.Cfg R D n) (it : Hclust.HInit R n) (fuel : Nat) (hn : 0 < c.nrow)
    (hnt : 0 < c.reqThreads) (hlt : c.nrow < 4294967296) (sched sched' : Nat → Nat → List Nat)
    (hc : ∀ t i, Complete (effThreads c.reqThreads c.nrow) (Kmeans.threadRows c.nrow c.reqThreads) (sched t i))
    (hc' : ∀ t i, Complete (effThreads c.reqThreads c.nrow) (Kmeans.threadRows c.nrow c.reqThreads) (sched' t i)) :
    SameOutcome (Hclust.run c it sched fuel) (Hclust.run c it sched' fuel) :=
  hclust_same (Kmeans.split_threadRows hn hnt hlt) hc hc'

/-- Configuration of the examples. -/
def demoCfg : Hclust.Cfg Fl Fl 1 :=
  { nrow := 4, reqThreads := 2, kmax := 4, maxIters := 3, minSize := 1, tol := .of 0, dist := demoDist,
    big := .of 100, data := demoData }

example (it : Hclust.HInit Fl 1) : SameOutcome (Hclust.run demoCfg it (fun _ => demoSched) 9)
    (Hclust.run demoCfg it (fun _ => demoSched') 9) :=
  C77_hclust_reproducible demoCfg it 9 (by decide) (by decide) (by decide) _ _
    (fun _ i => (demo_complete i).1) (fun _ i => (demo_complete i).2)

/-- **C77.** x-means and g-means, given the same split decisions `dec` (the decision functions are serial or
independent per cluster; they are not modelled). -/
theorem C77_xmeans_gmeans_reproducible
    (alg : Xmeans.Alg) (c : Hclust.Cfg R D n) (it : Hclust.HInit R n) (dec : Nat → List Nat → List Nat)
    (fuel : Nat) (hn : 0 < c.nrow)
    (hnt : 0 < c.reqThreads) (hlt : c.nrow < 4294967296) (sched sched' : Nat → Nat → List Nat)
    (hc : ∀ t i, Complete (effThreads c.reqThreads c.nrow) (Kmeans.threadRows c.nrow c.reqThreads) (sched t i))
    (hc' : ∀ t i, Complete (effThreads c.reqThreads c.nrow) (Kmeans.threadRows c.nrow c.reqThreads) (sched' t i)) :
    SameOutcome (Xmeans.run alg c it dec sched fuel) (Xmeans.run alg c it dec sched' fuel) :=
  xmeans_same (Kmeans.split_threadRows hn hnt hlt) hc hc'

example (alg : Xmeans.Alg) (it : Hclust.HInit Fl 1) (dec : Nat → List Nat → List Nat) :
    SameOutcome (Xmeans.run alg demoCfg it dec (fun _ => demoSched) 9)
      (Xmeans.run alg demoCfg it dec (fun _ => demoSched') 9) :=
  C77_xmeans_gmeans_reproducible alg demoCfg it dec 9 (by decide) (by decide) (by decide) _ _
    (fun _ i => (demo_complete i).1) (fun _ i => (demo_complete i).2)

/-- **C77, limit.** The number of threads does matter when addition rounds: with three significant bits
the mean of the rows 8, 0, 1, 1 is computed as 3 by one thread and as 5/2 by two. -/
theorem C77_thread_count_matters_when_addition_rounds :
    ∃ (dist : Row Fl 1 → Row Fl 1 → Fl) (big tol : Fl) (data : Nat → Row Fl 1) (sched1 sched2 : Nat → List Nat)
      (start : Omp.Start Fl Fl Unit 1 1) (r1 r2 : Kmeans.Result Fl 1 1),
      (∀ i, Complete (effThreads 1 4) (Kmeans.threadRows 4 1) (sched1 i)) ∧
      (∀ i, Complete (effThreads 2 4) (Kmeans.threadRows 4 2) (sched2 i)) ∧
      Omp.pthread dist big data 4 1 sched1 tol 1 sched1 start = .ok r1 ∧
      Omp.pthread dist big data 4 2 sched2 tol 1 sched2 start = .ok r2 ∧
      r1.state.cltrs.means 0 0 = .of 3 ∧ r2.state.cltrs.means 0 0 = .of (5/2) := by
  have h1 : (Omp.pthread (S := Unit) demoDist (.of 100) demoData 4 1 (fun _ => [0, 0, 0, 0]) (.of 0) 1
      (fun _ => [0, 0, 0, 0]) (.none fun (_ : Fin 1) _ => .of 0)).map
        (fun r => r.state.cltrs.means 0 0) = .ok (.of 3) := by decide +kernel
  have h2 : (Omp.pthread (S := Unit) demoDist (.of 100) demoData 4 2 demoSched (.of 0) 1
      demoSched (.none fun (_ : Fin 1) _ => .of 0)).map
        (fun r => r.state.cltrs.means 0 0) = .ok (.of (5/2)) := by decide +kernel
  obtain ⟨r1, e1, m1⟩ : ∃ r, Omp.pthread (S := Unit) demoDist (.of 100) demoData 4 1 (fun _ => [0, 0, 0, 0])
      (.of 0) 1 (fun _ => [0, 0, 0, 0]) (.none fun (_ : Fin 1) _ => .of 0) = .ok r ∧
      r.state.cltrs.means 0 0 = .of 3 := by
    revert h1
    cases Omp.pthread (S := Unit) demoDist (.of 100) demoData 4 1 (fun _ => [0, 0, 0, 0])
      (.of 0) 1 (fun _ => [0, 0, 0, 0]) (.none fun (_ : Fin 1) _ => .of 0) with
    | error e => intro h; cases h
    | ok r => intro h; exact ⟨r, rfl, by simpa [Except.map] using h⟩
  obtain ⟨r2, e2, m2⟩ : ∃ r, Omp.pthread (S := Unit) demoDist (.of 100) demoData 4 2 demoSched
      (.of 0) 1 demoSched (.none fun (_ : Fin 1) _ => .of 0) = .ok r ∧
      r.state.cltrs.means 0 0 = .of (5/2) := by
    revert h2
    cases Omp.pthread (S := Unit) demoDist (.of 100) demoData 4 2 demoSched
      (.of 0) 1 demoSched (.none fun (_ : Fin 1) _ => .of 0) with
    | error e => intro h; cases h
    | ok r => intro h; exact ⟨r, rfl, by simpa [Except.map] using h⟩
  refine ⟨_, _, _, _, _, _, _, r1, r2, ?_, fun i => (demo_complete i).1, e1, e2, m1, m2⟩
  intro i t ht
  have : t = 0 := by
    have : effThreads 1 4 = 1 := by decide
    omega
  subst this; decide

end Knor.Repro
