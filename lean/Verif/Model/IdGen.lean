import Mathlib.Data.Finset.Insert
import Mathlib.Data.Finset.Card
import Verif.Basic

/-!
# Cluster ids of the hierarchical variants (`hclust_id_generator`)

Models libman/hclust_id_generator.hpp.
-/

namespace Knor.IdGen

open Knor

/-- State of a generator; the head of `recycler` is the vector's back.
Models libman/hclust_id_generator.hpp:39-45. -/
structure Gen where
  maxId : Nat
  recycler : List Nat
  deriving DecidableEq, Repr

/-- `create()`.  Models libman/hclust_id_generator.hpp:44-45 and 62-64. -/
def create : Gen := ⟨0, []⟩

/-- `reclaim_id`.  Models libman/hclust_id_generator.hpp:51-53. -/
def Gen.reclaim (g : Gen) (id : Nat) : Gen := { g with recycler := id :: g.recycler }

/-- Pop the back of the recycler, or `++max_id` (an `unsigned`, so it wraps around).
Models libman/hclust_id_generator.hpp:70-75, and again 77-82. -/
def Gen.next (g : Gen) : Nat × Gen :=
  match g.recycler with
  | id :: rest => (id, { g with recycler := rest })
  | [] => (u32 (g.maxId + 1), { g with maxId := u32 (g.maxId + 1) })

/-- `get_split_ids`: the two ids and the new state.
Models libman/hclust_id_generator.hpp:67-84. -/
def Gen.split (g : Gen) : (Nat × Nat) × Gen :=
  let a := g.next
  let b := a.2.next
  ((a.1, b.1), b.2)

end Knor.IdGen
