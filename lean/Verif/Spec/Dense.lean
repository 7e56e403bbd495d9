import Mathlib.LinearAlgebra.Matrix.Notation
import Mathlib.Data.Fin.Tuple.Basic
import Verif.Model.Dense

/-! # Row-major storage of a matrix -/

namespace Knor.Spec

open Knor Knor.Dense

variable {R : Type _} {p q : Nat}

/-- The object that stores the matrix `A`: entry `t` of the buffer is `A (t / q) (t % q)`. -/
def stored (A : Matrix (Fin p) (Fin q) R) : DM R :=
  ⟨List.ofFn fun t : Fin (p * q) => A t.divNat t.modNat, p, q⟩

end Knor.Spec
