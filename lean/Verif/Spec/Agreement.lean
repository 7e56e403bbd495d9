import Verif.Model.Kmeans
import Verif.Spec.Lloyd

/-! # Specification: a state of the code agrees with a state of a Lloyd trace -/

namespace Knor.Kmeans

open Knor Knor.Spec

variable {R D : Type _} {k n : Nat}

/-- The state of the code after an iteration shows what Lloyd's algorithm has after it: the same
assignment of the `N` rows, the same centroids, sizes that are the histogram, and the number of
rows that changed since the previous iteration. -/
structure Agrees [Field R] (N : Nat) (st : KState R k n) (prev snap : Snap R k n) : Prop where
  assign : ∀ r, r < N → st.assign r = snap.assign r
  means : st.cltrs.means = snap.cents
  counts : ∀ c, st.counts c = (Spec.count N snap.assign c : Int)
  changed : st.changed = numChanged N prev.assign snap.assign

end Knor.Kmeans
