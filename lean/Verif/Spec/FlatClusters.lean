import Mathlib.Data.List.OfFn
import Mathlib.Data.Fintype.Basic
import Verif.Model.FlatClusters
import Verif.Spec.Cells

/-!
# Specification: the calls of `Spec/Cells.lean` made on stored objects
-/

namespace Knor.Flat

open Knor.Spec

variable {R : Type _} {k n : Nat}

/-- The numbers of `k` rows, row by row. -/
def flat (m : Fin k → Fin n → R) : List R := List.ofFn fun i : Fin (k * n) => m i.divNat i.modNat

/-- The object that stores the cells `f`. -/
def obj (f : Fin k → Cell R n) : Obj R :=
  { ncol := n, nclust := k, num := List.ofFn fun c => (f c).cnt, complete := List.ofFn fun c => (f c).done
    means := flat fun c => (f c).sum }

/-- A call of the specification made on an object: rows and matrices are passed as the numbers they consist of, other
containers as the objects that store their cells. -/
def doCall [Zero R] [One R] [Add R] [Sub R] [Mul R] [Div R] [IntCast R] (s : Obj R) : Call R k n → Res (Obj R)
  | .add x c => addMember s (List.ofFn x) c.val
  | .addIt x c => addIter s (List.ofFn x) c.val
  | .remove x c => removeMember s (List.ofFn x) c.val
  | .removeIt x c => removeIter s (List.ofFn x) c.val
  | .swap x a b => swapMembership s (List.ofFn x) a.val b.val
  | .swapIt x a b => swapIter s (List.ofFn x) a.val b.val
  | .setMean x c => setMean s (List.ofFn x) c.val
  | .setMeanVec x c => setMeanVec s (List.ofFn x) c.val
  | .setMeans m => setMeans s (flat m)
  | .setNum v => setNum s (List.ofFn v)
  | .setComplete c b => setComplete s c.val b
  | .setCompleteAll b => setCompleteAll s b
  | .finalize c => finalize s c.val
  | .unfinalize c => unfinalize s c.val
  | .finalizeAll => finalizeAll s
  | .unfinalizeAll => unfinalizeAll s
  | .plusEq o => plusEq s (obj o)
  | .peq o => peq s (obj o)
  | .meansPeq m => meansPeq s (flat m)
  | .numPeq v => numPeq s (List.ofFn v)
  | .scale f c x => scaleCentroid s f c.val (List.ofFn x)
  | .clear => .ok (clear s)

/-- A history of calls on an object. -/
def exec [Zero R] [One R] [Add R] [Sub R] [Mul R] [Div R] [IntCast R] (s : Obj R) : List (Call R k n) → Res (Obj R)
  | [] => .ok s
  | c :: h =>
    match doCall s c with
    | .error e => .error e
    | .ok s' => exec s' h

/-- The calls of the growing variant made on an object. -/
def doGCall [Zero R] [Add R] (s : Obj R) : GCall R n → Res (Obj R)
  | .add x c => addSparse s (List.ofFn x) c
  | .setComplete c b => setCompleteSparse s c b
  | .peq _ o => peqSparse s (obj o)

/-- How many clusters there is room for after a call. -/
def room (n K : Nat) : GCall R n → Nat
  | .add _ c => max K (c + 1)
  | .setComplete c _ => max K (c + 1)
  | .peq k _ => if K < k then k * n + 1 else K

/-- A history of calls on a growing container. -/
def execG [Zero R] [Add R] (s : Obj R) : List (GCall R n) → Res (Obj R)
  | [] => .ok s
  | c :: h =>
    match doGCall s c with
    | .error e => .error e
    | .ok s' => execG s' h

end Knor.Flat
