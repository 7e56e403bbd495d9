/-!
# Common vocabulary of the knor model

* `Fault` separates the three ways a C++ call can fail to return normally.
* `u32` / `u64` are the wrap-around conversions of `unsigned` and `size_t`.
-/

namespace Knor

/-- The ways a call of the C++ code can end other than by returning.
`assert` and `kbase::assert_msg` (libkcommon/util.hpp) abort the process,
C++ exceptions unwind (libkcommon/exception.hpp), and undefined behaviour
(out-of-bounds access, null dereference, use of an uninitialised value) has no
defined outcome at all.  They are kept apart because users may rely on one and
not on another. -/
inductive Fault where
  | assertFail
  | throws
  | ub
  deriving DecidableEq, Repr

/-- Result of a C++ call. -/
abbrev Res (α : Type _) := Except Fault α

instance {α : Type _} [DecidableEq α] : DecidableEq (Res α) := fun a b => by
  cases a with
  | error e =>
    cases b with
    | error f => exact decidable_of_iff (e = f) (by simp)
    | ok y => exact isFalse (by simp)
  | ok x =>
    cases b with
    | error f => exact isFalse (by simp)
    | ok y => exact decidable_of_iff (x = y) (by simp)

/-- Conversion to C++ `unsigned` (32 bit on the supported platforms). -/
def u32 (x : Nat) : Nat := x % 4294967296

/-- Conversion to C++ `size_t` (64 bit). -/
def u64 (x : Nat) : Nat := x % 18446744073709551616

/-- Subtraction on `size_t`, which wraps around instead of going negative. -/
def sub64 (a b : Nat) : Nat := u64 (u64 a + (18446744073709551616 - u64 b))

theorem u32_of_lt {x : Nat} (h : x < 4294967296) : u32 x = x := Nat.mod_eq_of_lt h

theorem u64_of_lt {x : Nat} (h : x < 18446744073709551616) : u64 x = x := Nat.mod_eq_of_lt h

end Knor
