import Verif.Spec.Io
import Verif.Lemmas.Partition

namespace Knor.Io

open Knor Knor.Spec

variable {T B : Type _}

theorem length_flatMap_const {α β : Type _} {f : α → List β} {w : Nat} (h : ∀ x, (f x).length = w) :
    ∀ l : List α, (l.flatMap f).length = l.length * w
  | [] => by simp
  | x :: l => by
    rw [List.flatMap_cons, List.length_append, h, length_flatMap_const h l, List.length_cons, Nat.succ_mul]
    omega

theorem drop_flatMap_const {α β : Type _} {f : α → List β} {w : Nat} (h : ∀ x, (f x).length = w) :
    ∀ (l : List α) (a : Nat), (l.flatMap f).drop (a * w) = (l.drop a).flatMap f
  | l, 0 => by simp
  | [], a + 1 => by simp
  | x :: l, a + 1 => by
    rw [List.flatMap_cons, List.drop_succ_cons, ← drop_flatMap_const h l a, List.drop_append,
      List.drop_eq_nil_of_le (by rw [h, Nat.succ_mul]; omega), List.nil_append, h]
    congr 1
    rw [Nat.succ_mul]; omega

theorem take_flatMap_const {α β : Type _} {f : α → List β} {w : Nat} (h : ∀ x, (f x).length = w) :
    ∀ (l : List α) (a : Nat), (l.flatMap f).take (a * w) = (l.take a).flatMap f
  | l, 0 => by simp
  | [], a + 1 => by simp
  | x :: l, a + 1 => by
    rw [List.flatMap_cons, List.take_succ_cons, List.flatMap_cons, ← take_flatMap_const h l a, List.take_append,
      List.take_of_length_le (by rw [h, Nat.succ_mul]; omega), h]
    congr 2
    rw [Nat.succ_mul]; omega

theorem decodeAll_enc {c : Codec T B} (hc : CodecOk c) :
    ∀ (l : List T) (rest : List B), decodeAll c l.length (l.flatMap c.enc ++ rest) = l
  | [], _ => rfl
  | x :: l, rest => by
    rw [List.length_cons, decodeAll, List.flatMap_cons, List.append_assoc]
    have h1 : (c.enc x ++ (l.flatMap c.enc ++ rest)).take c.size = c.enc x := by
      rw [← hc.len x, List.take_left]
    have h2 : (c.enc x ++ (l.flatMap c.enc ++ rest)).drop c.size = l.flatMap c.enc ++ rest := by
      rw [← hc.len x, List.drop_left]
    rw [h1, h2, hc.inv, decodeAll_enc hc l rest]

theorem decodeAll_enc' {c : Codec T B} (hc : CodecOk c) (l : List T) {m : Nat} (hm : m = l.length) :
    decodeAll c m (l.flatMap c.enc) = l := by
  have := decodeAll_enc hc l []
  rw [List.append_nil] at this
  rw [hm, this]

theorem length_enc {c : Codec T B} (hc : CodecOk c) (l : List T) : (l.flatMap c.enc).length = l.length * c.size :=
  length_flatMap_const hc.len l

theorem length_rowOf (m : Nat → Nat → T) (ncol r : Nat) : (rowOf m ncol r).length = ncol := by
  simp [rowOf]

theorem length_rowsFrom (m : Nat → Nat → T) (ncol first len : Nat) :
    (rowsFrom m ncol first len).length = len * ncol := by
  unfold rowsFrom
  rw [length_flatMap_const (length_rowOf m ncol), List.length_range']

theorem slice_rowsFrom (m : Nat → Nat → T) (ncol : Nat) {n a len : Nat} (h : a + len ≤ n) :
    ((rowsFrom m ncol 0 n).drop (a * ncol)).take (len * ncol) = rowsFrom m ncol a len := by
  unfold rowsFrom
  rw [drop_flatMap_const (length_rowOf m ncol), take_flatMap_const (length_rowOf m ncol)]
  congr 1
  apply List.ext_getElem
  · simp; omega
  · intro i h1 h2
    simp

theorem rowsFrom_one (m : Nat → Nat → T) (ncol r : Nat) : rowsFrom m ncol r 1 = rowOf m ncol r := by
  simp [rowsFrom]

/-- Reading `len` values at value position `a` from a file that stores `l`. -/
theorem fread_values {c : Codec T B} (hc : CodecOk c) (l : List T) {a len : Nat} (hl : 0 < len)
    (h : a + len ≤ l.length) :
    fread ⟨l.flatMap c.enc, a * c.size⟩ (len * c.size) =
      (some (((l.drop a).take len).flatMap c.enc), ⟨l.flatMap c.enc, (a + len) * c.size⟩) := by
  have hpos := hc.pos
  have h0 : ¬ len * c.size = 0 := by
    intro hh
    rcases Nat.mul_eq_zero.1 hh with h | h <;> omega
  have h1 : a * c.size + len * c.size ≤ (l.flatMap c.enc).length := by
    rw [length_enc hc, ← Nat.add_mul]
    exact Nat.mul_le_mul_right _ h
  unfold fread
  rw [if_neg h0, if_pos h1]
  simp only
  rw [drop_flatMap_const hc.len, take_flatMap_const hc.len, ← Nat.add_mul]

theorem fread_short {c : Codec T B} (hc : CodecOk c) (l : List T) {a len : Nat} 
    (h : l.length < a + len) :
    (fread ⟨l.flatMap c.enc, a * c.size⟩ (len * c.size)).1 = none := by
  unfold fread
  split
  · rfl
  · rw [if_neg]
    rw [length_enc hc, ← Nat.add_mul, Nat.not_le]
    exact Nat.mul_lt_mul_of_pos_right h hc.pos

theorem u64_mul {a b : Nat} (h : a * b < 18446744073709551616) : u64 (u64 a * b) = a * b := by
  rcases Nat.eq_zero_or_pos b with rfl | hb
  · simp [u64]
  · have : a ≤ a * b := Nat.le_mul_of_pos_right _ hb
    rw [u64_of_lt (x := a) (by omega), u64_of_lt h]

end Knor.Io
