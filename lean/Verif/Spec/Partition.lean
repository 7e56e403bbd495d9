/-!
# Specification: what it means for blocks of rows to partition a data set
-/

namespace Knor.Spec

/-- Row ids of a list of `(first, length)` blocks, in order. -/
def rowsOf (bs : List (Nat × Nat)) : List Nat :=
  bs.flatMap fun b => List.range' b.1 b.2

/-- The blocks are non-empty and, written one after the other, are exactly the rows
`first, first+1, …, first+len-1`: consecutive, disjoint and covering. -/
def PartitionsRange (first len : Nat) (bs : List (Nat × Nat)) : Prop :=
  (∀ b ∈ bs, 0 < b.2) ∧ rowsOf bs = List.range' first len

end Knor.Spec
