import Verif.Spec.Start
import Verif.Lemmas.Io
import Verif.Lemmas.Kmeans
import Verif.Props.Io

namespace Knor.Driver

open Knor Knor.Spec Knor.Io Knor.Partition

variable {R D S B : Type _} {k n : Nat}

theorem getD_rowsFrom [Zero R] (m : Nat → Nat → R) {N r : Nat} (hr : r < N) (j : Fin n) :
    (rowsFrom m n 0 N).getD (r * n + j.val) 0 = m r j.val := by
  have h := slice_rowsFrom m n (n := N) (a := r) (len := 1) (by omega)
  rw [rowsFrom_one, Nat.one_mul] at h
  have hg : ((rowsFrom m n 0 N).drop (r * n))[j.val]? = (rowOf m n r)[j.val]? := by
    rw [← h, List.getElem?_take, if_pos j.isLt]
  rw [List.getElem?_drop] at hg
  rw [List.getD_eq_getElem?_getD, hg]
  unfold rowOf
  rw [List.getElem?_map, List.getElem?_range j.isLt]
  rfl

theorem load_ok [Zero R] {c : Codec R B} (hc : CodecOk c) (m : Nat → Nat → R) (a : Call R B)
    (hn : 0 < a.nrow) (hr : 0 < a.nthreads) (hcol : 0 < n) (hlt : a.nrow < 4294967296)
    (hsz : a.nrow * n * c.size < 9223372036854775808) (hst : Holds c a.source m a.nrow n) :
    ∃ ws, load c a n = .ok ws ∧
      ∀ r, r < a.nrow → rowsIn (n := n) ws a.nrow a.nthreads r = matRows m r := by
  have hconv : ∀ ws : List (Worker R B), (∀ r, r < a.nrow → thdData ws a.nrow a.nthreads r = .ok (rowOf m n r)) →
      ∀ r, r < a.nrow → rowsIn (n := n) ws a.nrow a.nthreads r = matRows m r := by
    intro ws h r hr'
    unfold rowsIn
    rw [h r hr']
    funext j
    unfold rowOf matRows
    dsimp only
    rw [List.getD_eq_getElem?_getD, List.getElem?_map, List.getElem?_range j.isLt]
    rfl
  unfold load
  unfold Holds at hst
  cases hs : a.source with
  | file bytes =>
    rw [hs] at hst
    obtain ⟨ws, e, h⟩ := C51_lookup_after_load hc m a.nrow a.nrow a.nthreads n 0 hn hr hcol (by omega) hlt hsz
      bytes hst
    refine ⟨ws, e, hconv ws fun r hr' => ?_⟩
    have := h r hr'
    rwa [Nat.zero_add] at this
  | array l =>
    rw [hs] at hst
    simp only at hst
    subst hst
    refine ⟨_, rfl, hconv _ fun r hr' => ?_⟩
    have hle : a.nrow * n ≤ a.nrow * n * c.size := Nat.le_mul_of_pos_right _ hc.pos
    exact C51_lookup_in_array m c a.nrow a.nthreads n hn hr hlt (by omega) r hr'
  | numa l p =>
    rw [hs] at hst
    obtain ⟨hp, rfl⟩ := hst
    obtain ⟨ws, e, h⟩ := C51_lookup_after_reorg hc m p a.nrow a.nthreads n hp hn hr hlt (by omega)
    exact ⟨ws, e, hconv ws h⟩

theorem read_stored [Zero R] {c : Codec R B} (hc : CodecOk c) (g : Nat → Nat → R) (rows : Nat) (hpos : 0 < rows * n)
    (hlt : rows * n * c.size < 18446744073709551616) {bytes : List B} (hst : Stores c bytes g rows n) :
    ∃ y, (BinIo.openRead bytes rows n).read c = .ok (rowsFrom g n 0 rows, y) := by
  have hlen := length_rowsFrom g n 0 rows
  have h1 : u64 (u64 (c.size * n) * rows) = rows * n * c.size := by
    have h0 : c.size * n * rows = rows * n * c.size := by ring
    rw [u64_mul (by omega), h0]
  have hf := fread_values hc (rowsFrom g n 0 rows) (a := 0) hpos (by omega)
  rw [Nat.zero_mul, Nat.zero_add, List.drop_zero, List.take_of_length_le (by omega)] at hf
  unfold Stores at hst
  subst hst
  refine ⟨⟨⟨(rowsFrom g n 0 rows).flatMap c.enc, rows * n * c.size⟩, rows, n⟩, ?_⟩
  unfold BinIo.read BinIo.openRead
  dsimp only
  rw [h1, hf]
  dsimp only
  rw [decodeAll_enc' hc _ hlen.symm]

/-! ### Only the rows below `N` matter -/

theorem memberMean_data [Field R] {N : Nat} {data data' : Nat → Row R n} (h : ∀ r, r < N → data r = data' r)
    (a : Nat → Option (Fin k)) (c : Fin k) (j : Fin n) :
    memberMean N data a c j = memberMean N data' a c j := by
  unfold memberMean memberSum
  congr 2
  refine Finset.sum_congr rfl fun r hr => ?_
  rw [h r (Finset.mem_range.1 (Finset.mem_filter.1 hr).1)]

theorem trace_data [Field R] [LinearOrder D] {dist : Row R n → Row R n → D} {N : Nat}
    {data data' : Nat → Row R n} (h : ∀ r, r < N → data r = data' r) {c0 : Fin k → Row R n}
    {tr : Nat → Snap R k n} (ht : LloydTrace dist N data c0 tr) : LloydTrace dist N data' c0 tr :=
  ⟨ht.cents, ht.unassigned, fun i => ⟨fun r hr => by rw [← h r hr]; exact (ht.step i).assigned r hr,
    fun c j => by rw [← memberMean_data h]; exact (ht.step i).means c j⟩⟩

theorem minTo_data [LE D] {dist : Row R n → Row R n → D} {N : Nat} {data data' : Nat → Row R n}
    (h : ∀ r, r < N → data r = data' r) {ch : Fin k → Prop} {cents : Fin k → Row R n} {d : Nat → D}
    (hm : MinTo dist data N ch cents d) : MinTo dist data' N ch cents d := by
  intro q hq
  rw [← h q hq]
  exact hm q hq

end Knor.Driver
