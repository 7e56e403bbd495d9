import Verif.Model.Io

/-!
# Specification: matrices in files
-/

namespace Knor.Spec

variable {T B : Type _}

/-- Storing and loading a value gives the value back, and every value takes `size > 0` bytes. -/
structure CodecOk (c : Io.Codec T B) : Prop where
  pos : 0 < c.size
  len : ∀ x, (c.enc x).length = c.size
  inv : ∀ x, c.dec (c.enc x) = x

/-- Row `r` of a matrix. -/
def rowOf (m : Nat → Nat → T) (ncol r : Nat) : List T := (List.range ncol).map (m r)

/-- Rows `first, ..., first + len - 1`, one after the other. -/
def rowsFrom (m : Nat → Nat → T) (ncol first len : Nat) : List T :=
  (List.range' first len).flatMap (rowOf m ncol)

/-- The bytes are those of the matrix in row-major order. -/
def Stores (c : Io.Codec T B) (bytes : List B) (m : Nat → Nat → T) (nrow ncol : Nat) : Prop :=
  bytes = (rowsFrom m ncol 0 nrow).flatMap c.enc

end Knor.Spec
