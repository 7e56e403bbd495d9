import Verif.Model.HierDriver
import Verif.Spec.Start

/-! # Specification: calls of hierarchical clustering -/

namespace Knor.Driver

open Knor Knor.Spec Knor.Io

variable {R S B : Type _} {n : Nat}

/-- What the caller needs for a call on the matrix `m` with the given centres. -/
structure HierReady [Field R] [LinearOrder R] (n : Nat) (c : Codec R B) (rng : Rng R S 2)
    (kmax : Nat) (a : Call R B) (m : Nat → Nat → R) (given : Option (Nat → Nat → R)) : Prop where
  codec : CodecOk c
  cols : 0 < n
  rows : 0 < a.nrow
  threads : 0 < a.nthreads
  rowsLt : a.nrow < 4294967296
  bytes : a.nrow * n * c.size < 9223372036854775808
  holds : Holds c a.source m a.nrow n
  given : a.centers = given.map fun g => rowsFrom g n 0 2
  rng : RngOk rng a.nrow
  kLt : kmax < 1073741824

/-- `order` lists the keys of the map of centroids, each once (in the order in which the map is iterated), for every
map whose keys are below the number of counters. -/
def Enumerates (order : Hclust.St R n → List Nat) : Prop :=
  ∀ s, (∀ i, (s.final i).isSome → i < s.counts.length) → (order s).Nodup ∧ ∀ i, i ∈ order s ↔ (s.final i).isSome

/-- The two centroids with which hierarchical clustering starts: with Forgy's method two rows drawn one after the other;
without an initialisation the given centres, or two zero vectors if there are none. -/
def HierStartsAt [Zero R] (it : InitT) (data : Nat → Row R n) (rng : Rng R S 2) (given : Option (Nat → Nat → R))
    (m0 m1 : Row R n) : Prop :=
  (it = .forgy ∧ m0 = data (rng.row rng.seed).1 ∧ m1 = data (rng.row (rng.row rng.seed).2).1) ∨
  (it = .none ∧ (∀ g, given = some g → m0 = matRows g 0 ∧ m1 = matRows g 1) ∧
    (given = none → m0 = (fun _ => 0) ∧ m1 = fun _ => 0))

/-- The increasing order. -/
def increasing (s : Hclust.St R n) : List Nat := (List.range s.counts.length).filter fun i => (s.final i).isSome

end Knor.Driver
