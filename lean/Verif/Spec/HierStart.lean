import Verif.Model.Hclust
import Verif.Spec.Hier

/-! # Specification: where a hierarchical run may start -/

namespace Knor.Hclust

open Knor

variable {R D : Type _} {n : Nat}

/-- The first two centroids: rows of the data, or centres at a distance below `big` from every row. -/
def Startable [LT D] (c : Cfg R D n) : HInit R n → Prop
  | .forgy i j => i < c.nrow ∧ j < c.nrow
  | .given m0 m1 => ∀ r, r < c.nrow → c.dist (c.data r) m0 < c.big ∧ c.dist (c.data r) m1 < c.big
  | .other => False

end Knor.Hclust
