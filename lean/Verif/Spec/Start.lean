import Verif.Model.Driver
import Verif.Spec.Agreement
import Verif.Spec.Seeding
import Verif.Spec.Io

/-!
# Specification: where a k-means call starts and what it returns
-/

namespace Knor.Spec

open Knor.Driver Knor.Init

variable {R S B : Type _} {k n : Nat}

/-- The caller's data is the `nrow × n` matrix `m`, in a file or in an array (which may have been copied to
the NUMA nodes). -/
def Holds (c : Io.Codec R B) (src : Source R B) (m : Nat → Nat → R) (nrow n : Nat) : Prop :=
  match src with
  | .file bytes => Stores c bytes m nrow n
  | .array l => l = rowsFrom m n 0 nrow
  | .numa l nodes => 0 < nodes ∧ l = rowsFrom m n 0 nrow

/-- The rows of a matrix. -/
def matRows (m : Nat → Nat → R) (r : Nat) : Fin n → R := fun j => m r j.val

/-- The centroids that the first iteration starts from.
* `none`: the centres that were given, and zero vectors if none were.
* `forgy`: centroid `c` is the row with the number that draw `c` of the engine gives.
* `random`: draw `r` of the engine is the cluster of row `r`, and the centroids are the means.
* `kmeanspp`: the first centroid is the row of the first draw; every other one is sampled with the distances
  to the nearest centroid before it as weights. -/
def StartsAt [Field R] [LinearOrder R] (it : InitT) (dist : (Fin n → R) → (Fin n → R) → R)
    (data : Nat → Fin n → R) (N : Nat) (rng : Rng R S k) (given : Option (Fin k → Fin n → R))
    (c0 : Fin k → Fin n → R) : Prop :=
  match it with
  | .none => (∀ g, given = some g → c0 = g) ∧ (given = none → ∀ c j, c0 c j = 0)
  | .forgy => ∀ c : Fin k, ∃ r, r < N ∧ (outputs rng.row k rng.seed)[c.val]? = some r ∧ c0 c = data r
  | .random => ∃ a : Nat → Option (Fin k),
      (∀ r, r < N → ∃ c, a r = some c ∧ (outputs rng.clust N rng.seed)[r]? = some c) ∧
      ∀ c j, c0 c j = memberMean N data a c j
  | .plusplus => ∀ c : Fin k,
      (c.val = 0 → c0 c = data (rng.row rng.seed).1) ∧
      (0 < c.val → ∃ r d u, c0 c = data r ∧ MinTo dist data N (fun c' => c' < c) c0 d ∧
        (outputs rng.unit k (rng.row rng.seed).2)[c.val - 1]? = some u ∧ Sampled d N u r)

/-- The draws of the engine are in the ranges of their distributions. -/
structure RngOk [Zero R] [One R] [LE R] (rng : Rng R S k) (N : Nat) : Prop where
  row : ∀ s, (rng.row s).1 < N
  unit : ∀ s, 0 ≤ (rng.unit s).1 ∧ (rng.unit s).1 ≤ 1

/-- `res` is what Lloyd's algorithm gives with the trace `tr`: the state after the first iteration in which no
row, or at most the fraction `tol`, changed, with the number of that iteration; or, if there is none among the
first `maxIters`, the state after `maxIters` iterations, with the number `maxIters + 1`. -/
def LloydResult [Field R] [LinearOrder R] (N : Nat) (tol : R) (maxIters : Nat) (tr : Nat → Snap R k n)
    (res : Kmeans.Result R k n) : Prop :=
  (∃ m, 1 ≤ m ∧ m ≤ maxIters ∧ StopsAt N tol tr m ∧ (∀ j, 1 ≤ j → j < m → ¬ StopsAt N tol tr j) ∧
    res.iters = m ∧ Kmeans.Agrees N res.state (tr (m - 1)) (tr m)) ∨
  ((∀ j, 1 ≤ j → j ≤ maxIters → ¬ StopsAt N tol tr j) ∧ res.iters = maxIters + 1 ∧
    Kmeans.Agrees N res.state (tr (maxIters - 1)) (tr maxIters))

/-- `res` is what the caller was promised: the result of Lloyd's algorithm on the rows `data` with the distance
`dist`, started where the initialisation `it` says; with no iteration allowed, the start itself. -/
def Delivers [Field R] [LinearOrder R] (it : InitT) (dist : (Fin n → R) → (Fin n → R) → R)
    (data : Nat → Fin n → R) (N : Nat) (rng : Rng R S k) (given : Option (Fin k → Fin n → R)) (tol : R)
    (maxIters : Nat) (res : Kmeans.Result R k n) : Prop :=
  ∃ c0, StartsAt it dist data N rng given c0 ∧
    (maxIters = 0 → res.iters = 0 ∧ res.state.cltrs.means = c0) ∧
    (0 < maxIters → ∀ tr, LloydTrace dist N data c0 tr → LloydResult N tol maxIters tr res)

/-- Given centres as a matrix. -/
def givenCents (given : Option (Nat → Nat → R)) : Option (Fin k → Fin n → R) :=
  given.map fun g c j => g c.val j.val

end Knor.Spec
