import Verif.Basic

/-!
# The vector-backed map (`kbase::vmap`) and the flag vector (`thd_safe_bool_vector`)

Models libkcommon/types.hpp:100-222 and libkcommon/thd_safe_bool_vector.cpp.
-/

namespace Knor.VMap

open Knor

variable {T : Type _}

/-- A `vmap<T>`.  Models libkcommon/types.hpp:101-106. -/
structure VMap (T : Type _) where
  data : List T
  emptyval : T
  deriving DecidableEq, Repr

/-- The constructor with a capacity.  Models libkcommon/types.hpp:107-110. -/
def create (capacity : Nat) (emptyval : T) : VMap T := ⟨List.replicate capacity emptyval, emptyval⟩

/-- The default constructor, `emptyval` being the 0 it is initialised with.
Models libkcommon/types.hpp:106. -/
def createEmpty (zero : T) : VMap T := ⟨[], zero⟩

/-- `size`.  Models libkcommon/types.hpp:116. -/
def VMap.size (m : VMap T) : Nat := m.data.length

/-- `set_capacity`.  Models libkcommon/types.hpp:112-114. -/
def VMap.setCapacity (m : VMap T) (capacity : Nat) : VMap T :=
  { m with data := List.replicate capacity m.emptyval }

/-- `std::vector::resize` to a larger size, filling with `T()`, here `dflt`.
Models libkcommon/types.hpp:120-121 and 132-133. -/
def growTo (dflt : T) (l : List T) (size : Nat) : List T :=
  l ++ List.replicate (size - l.length) dflt

/-- The effect of a call of the non-const `operator[]` or `at` on the map: it grows if needed.
Models libkcommon/types.hpp:119-123 and 131-135. -/
def VMap.touch (dflt : T) (m : VMap T) (idx : Nat) : VMap T :=
  if idx ≥ m.size then { m with data := growTo dflt m.data (idx + 1) } else m

/-- Reading through the non-const `operator[]`, after `touch`.
Models libkcommon/types.hpp:119-123. -/
def VMap.read (dflt : T) (m : VMap T) (idx : Nat) : T × VMap T :=
  ((m.touch dflt idx).data.getD idx dflt, m.touch dflt idx)

/-- Assigning through the non-const `operator[]`.  Models libkcommon/types.hpp:119-123. -/
def VMap.put (dflt : T) (m : VMap T) (idx : Nat) (x : T) : VMap T :=
  { m.touch dflt idx with data := (m.touch dflt idx).data.set idx x }

/-- The const `operator[]`.  Models libkcommon/types.hpp:125-129. -/
def VMap.constRead (m : VMap T) (idx : Nat) : Res T :=
  match m.data[idx]? with
  | some x => .ok x
  | none => .error .throws

/-- `erase`, which does not check its argument.  Models libkcommon/types.hpp:117. -/
def VMap.erase (m : VMap T) (idx : Nat) : Res (VMap T) :=
  if idx < m.size then .ok { m with data := m.data.set idx m.emptyval } else .error .ub

/-- `clear`.  Models libkcommon/types.hpp:141-143. -/
def VMap.clear (m : VMap T) : VMap T := { m with data := List.replicate m.size m.emptyval }

/-- `has_key`; `size() - 1` is unsigned.  Models libkcommon/types.hpp:147-151. -/
def VMap.hasKey [DecidableEq T] (m : VMap T) (idx : Nat) : Res Bool :=
  if idx > sub64 m.size 1 then .ok false
  else
    match m.data[idx]? with
    | some x => .ok (decide (m.emptyval ≠ x))
    | none => .error .ub

/-- The loop of `get_keys` over the tail of the vector starting at `id`.
Models libkcommon/types.hpp:154-158. -/
def keysFrom [DecidableEq T] (e : T) : List T → Nat → List Nat
  | [], _ => []
  | x :: l, id => if e ≠ x then id :: keysFrom e l (id + 1) else keysFrom e l (id + 1)

/-- `get_keys` into an empty vector.  Models libkcommon/types.hpp:153-159. -/
def VMap.getKeys [DecidableEq T] (m : VMap T) : List Nat := keysFrom m.emptyval m.data 0

/-- `keycount`.  Models libkcommon/types.hpp:161-169. -/
def VMap.keycount [DecidableEq T] (m : VMap T) : Nat :=
  m.data.foldl (fun count x => if m.emptyval ≠ x then count + 1 else count) 0

/-- `keyless`.  Models libkcommon/types.hpp:171-177. -/
def VMap.keyless [DecidableEq T] (m : VMap T) : Bool :=
  m.data.all fun x => !decide (m.emptyval ≠ x)

/-- The search loop of the iterator over the tail of the vector starting at `off`: the offset of the
first non-empty entry, or the size.  Models libkcommon/types.hpp:198-202 and 216-218. -/
def seek [DecidableEq T] (e : T) : List T → Nat → Nat
  | [], off => off
  | x :: l, off => if e ≠ x then off else seek e l (off + 1)

/-- A new iterator's offset.  Models libkcommon/types.hpp:197-203. -/
def VMap.iterNew [DecidableEq T] (m : VMap T) : Nat := seek m.emptyval m.data 0

/-- `has_next`: the answer and the new offset.  Models libkcommon/types.hpp:212-221. -/
def VMap.hasNext [DecidableEq T] (m : VMap T) (off : Nat) : Bool × Nat :=
  if off = m.size ∨ m.size = 0 then (false, off)
  else
    let o := seek m.emptyval (m.data.drop off) off
    (decide (o < m.size), o)

/-- `next`: key, value and new offset.  Models libkcommon/types.hpp:206-210. -/
def VMap.next (m : VMap T) (off : Nat) : Res ((Nat × T) × Nat) :=
  match m.constRead off with
  | .error e => .error e
  | .ok x => .ok ((off, x), off + 1)

/-- The loop `while (itr.has_next()) { kv = itr.next(); ... }` used throughout libman, collecting
the entries; the first argument bounds the number of rounds.
Models e.g. libman/hclust_coordinator.cpp:347-350. -/
def VMap.collect [DecidableEq T] (m : VMap T) : Nat → Nat → Res (List (Nat × T))
  | 0, off => if (m.hasNext off).1 then .error .ub else .ok []
  | fuel + 1, off =>
    if (m.hasNext off).1 then
      match m.next (m.hasNext off).2 with
      | .error e => .error e
      | .ok (kv, off') =>
        match m.collect fuel off' with
        | .error e => .error e
        | .ok rest => .ok (kv :: rest)
    else .ok []

/-- Iterate over the whole map.  Models libkcommon/types.hpp:137-139. -/
def VMap.entries [DecidableEq T] (m : VMap T) : Res (List (Nat × T)) := m.collect m.size m.iterNew

/-! ## Flags -/

/-- `thd_safe_bool_vector::resize` to a larger size.
Models libkcommon/thd_safe_bool_vector.cpp:73-86. -/
def flagsResize (l : List Bool) (tosize : Nat) (init : Bool) : List Bool :=
  l.take tosize ++ List.replicate (tosize - l.length) init

/-- `create(len, init)`.  Models libkcommon/thd_safe_bool_vector.hpp:46-66. -/
def flagsCreate (len : Nat) (init : Bool) : List Bool := List.replicate len init

/-- `set`, which does not check its argument.
Models libkcommon/thd_safe_bool_vector.cpp:46-52. -/
def flagsSet (l : List Bool) (idx : Nat) (v : Bool) : Res (List Bool) :=
  if idx < l.length then .ok (l.set idx v) else .error .ub

/-- `get`, which does not check its argument.
Models libkcommon/thd_safe_bool_vector.cpp:38-40. -/
def flagsGet (l : List Bool) (idx : Nat) : Res Bool :=
  match l[idx]? with
  | some b => .ok b
  | none => .error .ub

/-- `check_set`.  Models libkcommon/thd_safe_bool_vector.cpp:54-63. -/
def flagsCheckSet (l : List Bool) (idx : Nat) (v : Bool) : Res (List Bool) :=
  flagsSet (if idx > l.length then flagsResize l (idx + 1) false else l) idx v

end Knor.VMap
