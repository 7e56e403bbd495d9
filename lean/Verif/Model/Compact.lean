import Verif.Model.Clusters

/-!
# Compaction of a hierarchical result

Models libkcommon/hclust_compactor.hpp and the constructor of `cluster_t` used by the hierarchical
variants (libkcommon/types.cpp:46-72).
-/

namespace Knor.Compact

open Knor

variable {R : Type _} {n : Nat}

/-- `std::unordered_map<unsigned, unsigned>`.
Models libkcommon/types.cpp:54 and libkcommon/hclust_compactor.hpp:35. -/
abbrev IdMap := Nat → Option Nat

/-- The loop of `remap`, at index `i`, with `remapd_counts` and `id_map` as accumulators.  A negative
count fails the assertion.  The index and the size are converted to `unsigned`.
Models libkcommon/hclust_compactor.hpp:37-44. -/
def remapLoop : List Int → Nat → List Nat → IdMap → Res (List Nat × IdMap)
  | [], _, out, m => .ok (out, m)
  | c :: cs, i, out, m =>
    if 0 ≤ c then
      if 0 < c then
        remapLoop cs (i + 1) (out ++ [c.toNat]) (Function.update m (u32 i) (some (u32 out.length)))
      else remapLoop cs (i + 1) out m
    else .error .assertFail

/-- `unordered_map::operator[]`, which inserts a zero for a missing key.  Models libkcommon/types.cpp:61 and 68. -/
def IdMap.at (m : IdMap) (key : Nat) : Nat × IdMap :=
  match m key with
  | some v => (v, m)
  | none => (0, Function.update m key (some 0))

/-- The loop that renames the rows' clusters.  Models libkcommon/types.cpp:60-61. -/
def relabel : List Nat → IdMap → List Nat × IdMap
  | [], m => ([], m)
  | a :: l, m =>
    let r := m.at a
    let rest := relabel l r.2
    (r.1 :: rest.1, rest.2)

/-- The loop that copies the centroids, in the (unspecified) iteration order of the
`unordered_map`; `size` is the number of centroids that fit into the buffer.  Writing past the
buffer is undefined.  Models libkcommon/types.cpp:65-69. -/
def copyRows (size : Nat) : List (Nat × Row R n) → IdMap → (Nat → Row R n) → Res (Nat → Row R n)
  | [], _, buf => .ok buf
  | (key, v) :: l, m, buf =>
    let r := m.at key
    if r.1 < size then copyRows size l r.2 (Function.update buf r.1 v) else .error .ub

/-- The result object.  Models libkcommon/types.hpp:41-46. -/
structure Result (R : Type _) (n : Nat) where
  assignments : List Nat
  counts : List Nat
  centroids : Nat → Row R n
  k : Nat

/-- The constructor; `cents` lists the centroid map in its iteration order.
Models libkcommon/types.cpp:46-72. -/
def hierResult [Zero R] (assign : List Nat) (counts : List Int) (cents : List (Nat × Row R n)) :
    Res (Result R n) :=
  match remapLoop counts 0 [] (fun _ => none) with
  | .error e => .error e
  | .ok (out, m) =>
    let r := relabel assign m
    match copyRows cents.length cents r.2 (fun _ _ => 0) with
    | .error e => .error e
    | .ok buf => .ok ⟨r.1, out, buf, cents.length⟩

end Knor.Compact
