import Verif.Model.Gmm

/-!
# Specification: special values of IEEE 754

Which classes of values the operations on `double` can return, by the classes of their operands.  The tables
hold for every rounding mode to nearest and leave open whether a result overflows or underflows.
-/

namespace Knor.Spec

/-- Classes of floating-point values; `pos` and `neg` are finite and not zero, the sign of a zero is ignored. -/
inductive Cls where
  | nan | ninf | neg | zero | pos | pinf
  deriving DecidableEq, Repr

namespace Cls

/-- Change of sign. -/
def opp : Cls → Cls
  | nan => nan | ninf => pinf | neg => pos | zero => zero | pos => neg | pinf => ninf

/-- Sums. -/
def add : Cls → Cls → List Cls
  | nan, _ | _, nan => [nan]
  | pinf, ninf | ninf, pinf => [nan]
  | pinf, _ | _, pinf => [pinf]
  | ninf, _ | _, ninf => [ninf]
  | zero, y => [y]
  | x, zero => [x]
  | pos, pos => [pos, pinf]
  | neg, neg => [neg, ninf]
  | _, _ => [neg, zero, pos]

/-- Products. -/
def mul : Cls → Cls → List Cls
  | nan, _ | _, nan => [nan]
  | zero, pinf | zero, ninf | pinf, zero | ninf, zero => [nan]
  | zero, _ | _, zero => [zero]
  | pinf, pinf | ninf, ninf | pinf, pos | pos, pinf | ninf, neg | neg, ninf => [pinf]
  | pinf, ninf | ninf, pinf | pinf, neg | neg, pinf | ninf, pos | pos, ninf => [ninf]
  | pos, pos | neg, neg => [zero, pos, pinf]
  | _, _ => [zero, neg, ninf]

/-- Quotients. -/
def div : Cls → Cls → List Cls
  | nan, _ | _, nan => [nan]
  | pinf, pinf | pinf, ninf | ninf, pinf | ninf, ninf => [nan]
  | zero, zero => [nan]
  | _, zero => [ninf, pinf]
  | zero, _ => [zero]
  | _, pinf | _, ninf => [zero]
  | pinf, pos | ninf, neg => [pinf]
  | pinf, neg | ninf, pos => [ninf]
  | pos, pos | neg, neg => [zero, pos, pinf]
  | _, _ => [zero, neg, ninf]

/-- Logarithms. -/
def log2 : Cls → List Cls
  | nan | ninf | neg => [nan]
  | zero => [ninf]
  | pos => [neg, zero, pos]
  | pinf => [pinf]

/-- Finite. -/
def Finite (c : Cls) : Prop := c = neg ∨ c = zero ∨ c = pos

end Cls

/-- The operations `o` on values with classes `cls` follow the rules of IEEE 754 for special values. -/
structure Ieee {F : Type _} (o : Gmm.Ops F) (cls : F → Cls) : Prop where
  zero : cls o.zero = .zero
  half : cls o.half = .pos
  mhalf : cls o.mhalf = .neg
  /-- The additive constant of the logarithm of a normal density is a finite number. -/
  const : (cls (o.mul (o.mul o.half o.m) (o.log2 o.twoPi))).Finite
  add : ∀ x y, cls (o.add x y) ∈ (cls x).add (cls y)
  sub : ∀ x y, cls (o.sub x y) ∈ (cls x).add (cls y).opp
  mul : ∀ x y, cls (o.mul x y) ∈ (cls x).mul (cls y)
  div : ∀ x y, cls (o.div x y) ∈ (cls x).div (cls y)
  log2 : ∀ x, cls (o.log2 x) ∈ (cls x).log2

end Knor.Spec
