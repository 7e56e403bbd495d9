import Mathlib.Analysis.SpecialFunctions.Log.Base
import Verif.Basic

/-!
# Sizes of binary trees: `get_hclust_floor`, `get_hclust_ceil`, `get_max_hnodes`

The first two go through `std::log2` and `std::pow` on doubles.  `log2` is a parameter, the real numbers that the
library function returns for the unsigned numbers; `std::pow(2, m)` for an `unsigned` `m` below 1024 is exact.
-/

namespace Knor.TreeSize

open Knor

/-- The conversion of a `double` to `unsigned`: the fraction is discarded, and it is undefined if what remains does not
fit.  Models libkcommon/util.cpp:70 and libkcommon/util.cpp:74. -/
noncomputable def toUnsigned (x : ℝ) : Res Nat := if -1 < x ∧ x < 2 ^ 32 then .ok ⌊x⌋₊ else .error .ub

/-- `std::pow(2, …)` of the converted argument, converted back.  Models libkcommon/util.cpp:70 and
libkcommon/util.cpp:74. -/
noncomputable def powTwo (x : ℝ) : Res Nat :=
  match toUnsigned x with
  | .error e => .error e
  | .ok m => toUnsigned ((2 : ℝ) ^ m)

/-- `get_hclust_ceil`; the logarithm of 0 is minus infinity, whose conversion is undefined.
Models libkcommon/util.cpp:69-71. -/
noncomputable def hclustCeil (log2 : Nat → ℝ) (k : Nat) : Res Nat :=
  if k = 0 then .error .ub else powTwo (⌈log2 k⌉ : ℝ)

/-- `get_hclust_floor`.  Models libkcommon/util.cpp:73-75. -/
noncomputable def hclustFloor (log2 : Nat → ℝ) (k : Nat) : Res Nat :=
  if k = 0 then .error .ub else powTwo (log2 k)

/-- The loop of `get_max_hnodes` with `T = unsigned`, whose counters wrap around; `none` if it has not ended after
`fuel` rounds.  Models libkcommon/util.hpp:51-54. -/
def hnodesLoop (v : Nat) : Nat → Nat → Nat → Option Nat
  | 0, _, _ => none
  | fuel + 1, i, nodes => if i ≤ v then hnodesLoop v fuel (u32 (i * 2)) (u32 (nodes + i)) else some nodes

/-- `get_max_hnodes`, observed after `fuel` rounds.  Models libkcommon/util.hpp:49-55. -/
def maxHnodes (v fuel : Nat) : Option Nat := hnodesLoop v fuel 1 0

end Knor.TreeSize
