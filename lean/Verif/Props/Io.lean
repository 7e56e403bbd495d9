import Verif.Lemmas.Io
import Verif.Props.Hclust

/-!
# Properties of files, results on disk and comparisons
-/

namespace Knor.Io

open Knor Knor.Spec

variable {T B : Type _}

/-! ## C51 -/

theorem writes_ok {c : Codec T B} (hc : CodecOk c) : ∀ (ws : List (List T)) (x : BinIo B),
    (∀ w ∈ ws, w ≠ []) → x.f.pos = x.f.bytes.length →
    ∃ y, BinIo.writes c ws x = .ok y ∧ y.f.bytes = x.f.bytes ++ ws.flatten.flatMap c.enc
  | [], x, _, _ => ⟨x, rfl, by simp⟩
  | w :: ws, x, hne, hp => by
    have hw : w.flatMap c.enc ≠ [] := by
      intro h
      have := length_enc hc w
      rw [h, List.length_nil] at this
      rcases Nat.mul_eq_zero.1 this.symm with h1 | h1
      · exact hne w (by simp) (List.length_eq_zero_iff.1 h1)
      · have := hc.pos; omega
    have e1 : x.write c w = .ok { x with f := ⟨x.f.bytes ++ w.flatMap c.enc, x.f.pos + (w.flatMap c.enc).length⟩ } := by
      unfold BinIo.write fwrite
      have : decide (w.flatMap c.enc ≠ []) = true := by simpa using hw
      simp only [this]
      rw [hp]
      simp
    obtain ⟨y, e2, hy⟩ := writes_ok hc ws { x with f := ⟨x.f.bytes ++ w.flatMap c.enc, x.f.pos + (w.flatMap c.enc).length⟩ }
      (fun v hv => hne v (by simp [hv])) (by simp [hp])
    refine ⟨y, ?_, ?_⟩
    · unfold BinIo.writes
      simp only [e1]
      exact e2
    · rw [hy]; simp

/-- **C51 (any data).**  Whatever is written to a binary file, in any number of non-empty pieces, is read
back unchanged by one read of that many values, and the end of the file is then recognised. -/
theorem C51_write_then_read {c : Codec T B} (hc : CodecOk c) (ws : List (List T)) (hne : ∀ w ∈ ws, w ≠ [])
    (nrow ncol : Nat) (hsz : nrow * ncol = ws.flatten.length) (hpos : 0 < nrow * ncol)
    (hlt : nrow * ncol * c.size < 18446744073709551616) :
    ∃ x y, BinIo.writes c ws BinIo.openWrite = .ok x ∧
      (BinIo.openRead x.f.bytes nrow ncol).read c = .ok (ws.flatten, y) ∧ y.more c = false := by
  obtain ⟨x, e, hx⟩ := writes_ok hc ws BinIo.openWrite hne rfl
  have hx' : x.f.bytes = ws.flatten.flatMap c.enc := by rw [hx]; simp [BinIo.openWrite]
  have h1 : u64 (u64 (c.size * ncol) * nrow) = nrow * ncol * c.size := by
    have h0 : c.size * ncol * nrow = nrow * ncol * c.size := by ring
    rw [u64_mul (by omega), h0]
  have h2 : u64 (u64 (nrow * ncol) * c.size) = nrow * ncol * c.size := by
    rw [u64_mul hlt]
  have hf := fread_values hc ws.flatten (a := 0) hpos (by omega)
  rw [Nat.zero_mul, Nat.zero_add, List.drop_zero, List.take_of_length_le (by omega)] at hf
  refine ⟨x, ⟨⟨ws.flatten.flatMap c.enc, nrow * ncol * c.size⟩, nrow, ncol⟩, e, ?_, ?_⟩
  · unfold BinIo.read BinIo.openRead
    simp only [h1, hx', hf]
    rw [decodeAll_enc' hc _ hsz]
  · unfold BinIo.more
    simp only [h2]
    simp

/-- Eight-byte values, with bytes given by their positions: a codec of the kind assumed. -/
def demoCodec : Codec Nat (Nat × Nat) := ⟨8, fun x => (List.range 8).map fun i => (i, x), fun bs => (bs.headD (0, 0)).2⟩

theorem demoCodec_ok : CodecOk demoCodec := ⟨by decide, fun x => by simp [demoCodec], fun x => by
  simp [demoCodec, List.range_succ]⟩

example : ∃ x y, BinIo.writes demoCodec [[1, 2, 3], [4, 5, 6]] BinIo.openWrite = .ok x ∧
    (BinIo.openRead x.f.bytes 2 3).read demoCodec = .ok ([1, 2, 3, 4, 5, 6], y) ∧ y.more demoCodec = false :=
  C51_write_then_read demoCodec_ok [[1, 2, 3], [4, 5, 6]] (by decide) 2 3 (by decide) (by decide) (by decide)

theorem readLines_ok {c : Codec T B} (hc : CodecOk c) (m : Nat → Nat → T) (nrow ncol : Nat) (hcol : 0 < ncol)
    (hlt : nrow * ncol * c.size < 18446744073709551616) (bytes : List B) (hst : Stores c bytes m nrow ncol) :
    ∀ (todo done fuel : Nat), done + todo = nrow → todo ≤ fuel →
    BinIo.readLines c fuel ⟨⟨bytes, done * ncol * c.size⟩, nrow, ncol⟩ =
      .ok ((List.range' done todo).map (rowOf m ncol), ⟨⟨bytes, nrow * ncol * c.size⟩, nrow, ncol⟩) := by
  have h2 : u64 (u64 (nrow * ncol) * c.size) = nrow * ncol * c.size := by
    rw [u64_mul hlt]
  intro todo
  induction todo with
  | zero =>
    intro done fuel hd _
    have hd' : done = nrow := by omega
    subst hd'
    cases fuel with
    | zero => rfl
    | succ fuel =>
      unfold BinIo.readLines BinIo.more
      simp only [h2]
      simp
  | succ todo ih =>
    intro done fuel hd hf
    obtain ⟨fuel, rfl⟩ : ∃ f, fuel = f + 1 := ⟨fuel - 1, by omega⟩
    have hmore : (BinIo.mk ⟨bytes, done * ncol * c.size⟩ nrow ncol).more c = true := by
      unfold BinIo.more
      simp only [h2, decide_eq_true_eq]
      intro hh
      have h3 : done * (ncol * c.size) = nrow * (ncol * c.size) := by rw [← Nat.mul_assoc, ← Nat.mul_assoc]; exact hh
      have := Nat.eq_of_mul_eq_mul_right (Nat.mul_pos hcol hc.pos) h3
      omega
    have hrd : (BinIo.mk ⟨bytes, done * ncol * c.size⟩ nrow ncol).readline c =
        .ok (rowOf m ncol done, ⟨⟨bytes, (done + 1) * ncol * c.size⟩, nrow, ncol⟩) := by
      have hle : c.size * ncol ≤ nrow * ncol * c.size := by
        rw [Nat.mul_comm c.size, Nat.mul_assoc]
        exact Nat.le_mul_of_pos_left _ (by omega)
      have hfr := fread_values hc (rowsFrom m ncol 0 nrow) (a := done * ncol) hcol (by
        rw [length_rowsFrom]
        calc done * ncol + ncol = (done + 1) * ncol := by ring
          _ ≤ nrow * ncol := Nat.mul_le_mul_right _ (by omega))
      have hsl := slice_rowsFrom m ncol (n := nrow) (a := done) (len := 1) (by omega)
      rw [Nat.one_mul, rowsFrom_one] at hsl
      rw [hsl, ← hst] at hfr
      unfold BinIo.readline
      simp only [u64_of_lt (show c.size * ncol < _ by omega)]
      rw [Nat.mul_comm c.size ncol]
      simp only [hfr]
      rw [decodeAll_enc' hc _ (length_rowOf m ncol done).symm, show done * ncol + ncol = (done + 1) * ncol by ring]
    unfold BinIo.readLines
    rw [if_pos hmore]
    simp only [hrd, ih (done + 1) fuel (by omega) (by omega)]
    rw [List.range'_succ]
    rfl

/-- **C51 (rows).**  Reading a matrix file row by row, as long as the reader says there is more, gives
every row once, in order, and then stops. -/
theorem C51_rows_in_order {c : Codec T B} (hc : CodecOk c) (m : Nat → Nat → T) (nrow ncol : Nat) (hcol : 0 < ncol)
    (hlt : nrow * ncol * c.size < 18446744073709551616) (bytes : List B) (hst : Stores c bytes m nrow ncol)
    (fuel : Nat) (hf : nrow ≤ fuel) :
    ∃ y, BinIo.readLines c fuel (BinIo.openRead bytes nrow ncol) = .ok ((List.range nrow).map (rowOf m ncol), y) ∧
      y.more c = false := by
  have := readLines_ok hc m nrow ncol hcol hlt bytes hst nrow 0 fuel (by omega) hf
  rw [Nat.zero_mul, Nat.zero_mul] at this
  refine ⟨⟨⟨bytes, nrow * ncol * c.size⟩, nrow, ncol⟩, ?_, ?_⟩
  · unfold BinIo.openRead
    rw [this, List.range_eq_range']
  · unfold BinIo.more
    simp only [u64_mul hlt]
    simp

example : Stores demoCodec ([10, 11, 20, 21, 30, 31].flatMap demoCodec.enc) (fun r j => 10 * (r + 1) + j) 3 2 := by
  unfold Stores
  decide

theorem block_le {nrow req thd : Nat} (hn : 0 < nrow) (hr : 0 < req) (hlt : nrow < 4294967296)
    (ht : thd < Partition.effThreads req nrow) :
    (Partition.ridLen nrow (Partition.effThreads req nrow) thd).1 +
      (Partition.ridLen nrow (Partition.effThreads req nrow) thd).2 ≤ nrow ∧
    0 < (Partition.ridLen nrow (Partition.effThreads req nrow) thd).2 := by
  have hp := Partition.effThreads_pos hr hn
  have hq := Partition.quot_pos hr hn
  rw [Partition.ridLen_eq hlt hp ht]
  generalize Partition.effThreads req nrow = t at *
  have hdm := Nat.div_add_mod nrow t
  have h1 : (thd + 1) * (nrow / t) ≤ t * (nrow / t) := Nat.mul_le_mul_right _ (by omega)
  rw [Nat.succ_mul] at h1
  dsimp only
  split
  · omega
  · omega

theorem alloc_ok {c : Codec T B} (hc : CodecOk c) (m : Nat → Nat → T) (total nrow req ncol shift thd : Nat)
    (hn : 0 < nrow) (hr : 0 < req) (hcol : 0 < ncol) (hsh : shift + nrow ≤ total) (htot : total < 4294967296)
    (hlt : total * ncol * c.size < 9223372036854775808) (bytes : List B) (hst : Stores c bytes m total ncol)
    (ht : thd < Partition.effThreads req nrow) :
    (Worker.create c bytes nrow req ncol shift thd : Worker T B).numaAllocMem c =
      .ok ⟨(Partition.ridLen nrow (Partition.effThreads req nrow) thd).1 + shift, ncol,
        (Partition.ridLen nrow (Partition.effThreads req nrow) thd).2 * ncol * c.size, none,
        some (rowsFrom m ncol ((Partition.ridLen nrow (Partition.effThreads req nrow) thd).1 + shift)
          (Partition.ridLen nrow (Partition.effThreads req nrow) thd).2)⟩ := by
  obtain ⟨hb, hb0⟩ := block_le hn hr (by omega) ht
  unfold Worker.create Worker.numaAllocMem
  generalize Partition.ridLen nrow (Partition.effThreads req nrow) thd = b at *
  obtain ⟨a, len⟩ := b
  dsimp only at hb hb0 ⊢
  have h1 : (a + shift) * ncol * c.size ≤ total * ncol * c.size :=
    Nat.mul_le_mul_right _ (Nat.mul_le_mul_right _ (by omega))
  have h2 : len * ncol * c.size ≤ total * ncol * c.size :=
    Nat.mul_le_mul_right _ (Nat.mul_le_mul_right _ (by omega))
  have h3 : c.size * len * ncol = len * ncol * c.size := by ring
  rw [u32_of_lt (show a + shift < 4294967296 by omega), u64_mul (show (a + shift) * ncol * c.size < _ by omega),
    u64_mul (show c.size * len * ncol < _ by omega), h3]
  have hfr := fread_values hc (rowsFrom m ncol 0 total) (a := (a + shift) * ncol) (len := len * ncol)
    (Nat.mul_pos hb0 hcol) (by
      rw [length_rowsFrom, ← Nat.add_mul]
      exact Nat.mul_le_mul_right _ (by omega))
  rw [slice_rowsFrom m ncol (by omega), ← hst] at hfr
  simp only [hfr]
  rw [Nat.mul_div_cancel _ hc.pos, decodeAll_enc' hc _ (length_rowsFrom m ncol _ _).symm]

/-- **C51 (blocks).**  A worker that loads its block from a matrix file of `total` rows gets exactly the
rows of its block; `shift` is the first row of its process (0 without MPI).  A second attempt to load
is refused. -/
theorem C51_worker_loads_its_block {c : Codec T B} (hc : CodecOk c) (m : Nat → Nat → T)
    (total nrow req ncol shift thd : Nat)
    (hn : 0 < nrow) (hr : 0 < req) (hcol : 0 < ncol) (hsh : shift + nrow ≤ total) (htot : total < 4294967296)
    (hlt : total * ncol * c.size < 9223372036854775808) (bytes : List B) (hst : Stores c bytes m total ncol)
    (ht : thd < Partition.effThreads req nrow) :
    ∃ w, (Worker.create c bytes nrow req ncol shift thd : Worker T B).numaAllocMem c = .ok w ∧
      (∃ b, (Partition.blocks nrow req)[thd]? = some b ∧
        w.localData = some (rowsFrom m ncol (b.1 + shift) b.2)) ∧
      w.numaAllocMem c = .error .assertFail := by
  refine ⟨_, alloc_ok hc m total nrow req ncol shift thd hn hr hcol hsh htot hlt bytes hst ht,
    ⟨Partition.ridLen nrow (Partition.effThreads req nrow) thd, ?_, rfl⟩, rfl⟩
  unfold Partition.blocks
  rw [List.getElem?_map, List.getElem?_range ht]
  rfl

theorem mapM_ok {α β : Type _} (f : α → Res β) (g : α → β) : ∀ l : List α, (∀ x ∈ l, f x = .ok (g x)) →
    l.mapM f = .ok (l.map g)
  | [], _ => rfl
  | x :: l, h => by
    rw [List.mapM_cons, h x (by simp), mapM_ok f g l fun y hy => h y (by simp [hy])]
    rfl

/-- **C51 (look-up).**  After all workers of a process have loaded their blocks, looking up any row of the
process gives exactly that row of the file. -/
theorem C51_lookup_after_load {c : Codec T B} (hc : CodecOk c) (m : Nat → Nat → T)
    (total nrow req ncol shift : Nat)
    (hn : 0 < nrow) (hr : 0 < req) (hcol : 0 < ncol) (hsh : shift + nrow ≤ total) (htot : total < 4294967296)
    (hlt : total * ncol * c.size < 9223372036854775808) (bytes : List B) (hst : Stores c bytes m total ncol) :
    ∃ ws, loadAll c bytes nrow req ncol shift = .ok ws ∧
      ∀ row, row < nrow → thdData ws nrow req row = .ok (rowOf m ncol (shift + row)) := by
  refine ⟨_, mapM_ok _ _ _ fun thd ht => alloc_ok hc m total nrow req ncol shift thd hn hr hcol hsh htot hlt bytes
    hst (List.mem_range.1 ht), ?_⟩
  intro row hrow
  obtain ⟨h1, h2, h3⟩ := Partition.getThdData_spec hr hrow (show nrow < 4294967296 by omega)
  unfold thdData
  dsimp only at h1 h2 h3 ⊢
  generalize Partition.getThdData nrow req row = p at *
  rw [List.getElem?_map, List.getElem?_range h1]
  simp only [Option.map_some]
  unfold Worker.localRow
  dsimp only
  obtain ⟨hb, hb0⟩ := block_le hn hr (by omega) h1
  generalize Partition.ridLen nrow (Partition.effThreads req nrow) p.1 = b at *
  have hle : p.2 * ncol ≤ total * ncol * c.size :=
    Nat.le_trans (Nat.mul_le_mul_right _ (show p.2 ≤ total by omega)) (Nat.le_mul_of_pos_right _ hc.pos)
  rw [u64_of_lt (by omega), if_pos]
  · have h4 : ((rowsFrom m ncol (b.1 + shift) b.2).drop (p.2 * ncol)).take ncol = rowOf m ncol (shift + row) := by
      unfold rowsFrom
      rw [drop_flatMap_const (length_rowOf m ncol)]
      have := take_flatMap_const (length_rowOf m ncol) ((List.range' (b.1 + shift) b.2).drop p.2) 1
      rw [Nat.one_mul] at this
      rw [this, List.drop_range', show b.2 - p.2 = (b.2 - p.2 - 1) + 1 by omega, List.range'_succ]
      simp only [List.take_succ_cons, List.take_zero, List.flatMap_cons, List.flatMap_nil, List.append_nil]
      congr 1
      omega
    rw [h4]
  · rw [length_rowsFrom]
    calc p.2 * ncol + ncol = (p.2 + 1) * ncol := by ring
      _ ≤ b.2 * ncol := Nat.mul_le_mul_right _ h2

/-- Seven rows of two columns on three workers, in the second of two processes of a run on 14 rows. -/
example : ∃ ws, loadAll demoCodec ((rowsFrom (fun r j => 10 * r + j) 2 0 14).flatMap demoCodec.enc) 7 3 2 7 = .ok ws ∧
    thdData ws 7 3 6 = .ok [130, 131] := by
  obtain ⟨ws, e, h⟩ := C51_lookup_after_load demoCodec_ok (fun r j => 10 * r + j) 14 7 3 2 7 (by decide) (by decide)
    (by decide) (by decide) (by decide) (by decide) _ rfl
  exact ⟨ws, e, h 6 (by decide)⟩

/-- **C51 (caller's array).**  The same for data passed as an array. -/
theorem C51_lookup_in_array (m : Nat → Nat → T) (c : Codec T B) (nrow req ncol : Nat) (hn : 0 < nrow)
    (hr : 0 < req) (hnlt : nrow < 4294967296) (hlt : nrow * ncol < 18446744073709551616) (row : Nat) (hrow : row < nrow) :
    thdData ((List.range (Partition.effThreads req nrow)).map fun thd =>
      (Worker.create c [] nrow req ncol 0 thd : Worker T B).setLocalDataPtr (rowsFrom m ncol 0 nrow)) nrow req row =
      .ok (rowOf m ncol row) := by
  obtain ⟨h1, h2, h3⟩ := Partition.getThdData_spec hr hrow hnlt
  unfold thdData
  dsimp only at h1 h2 h3 ⊢
  generalize Partition.getThdData nrow req row = p at *
  rw [List.getElem?_map, List.getElem?_range h1]
  simp only [Option.map_some]
  unfold Worker.localRow Worker.setLocalDataPtr Worker.create
  dsimp only
  obtain ⟨hb, hb0⟩ := block_le hn hr (by omega) h1
  generalize Partition.ridLen nrow (Partition.effThreads req nrow) p.1 = b at *
  have hle1 : p.2 * ncol ≤ nrow * ncol := Nat.mul_le_mul_right _ (by omega)
  have hle2 : b.1 * ncol ≤ nrow * ncol := Nat.mul_le_mul_right _ (by omega)
  rw [Nat.add_zero, u32_of_lt (show b.1 < 4294967296 by omega), u64_of_lt (show p.2 * ncol < _ by omega),
    u64_of_lt (show b.1 * ncol < _ by omega)]
  have hsum : b.1 * ncol + p.2 * ncol + ncol = (row + 1) * ncol := by rw [← h3]; ring
  have hle3 : (row + 1) * ncol ≤ nrow * ncol := Nat.mul_le_mul_right _ hrow
  rw [if_pos (by rw [List.length_drop, length_rowsFrom]; omega), List.drop_drop,
    show b.1 * ncol + p.2 * ncol = row * ncol by rw [← h3]; ring]
  have h4 := slice_rowsFrom m ncol (n := nrow) (a := row) (len := 1) (by omega)
  rw [Nat.one_mul, rowsFrom_one] at h4
  rw [h4]

private theorem numaReorg_ok (c : Codec T B) (data : List T) (ncol : Nat) (w : Worker T B) {a l : Nat}
    (ha : u64 (w.startRid * ncol) = a) (hl : w.dataSize / c.size = l) (h : a + l ≤ data.length) :
    w.numaReorg c data ncol = .ok { w with localData := some ((data.drop a).take l) } := by
  subst ha hl
  unfold Worker.numaReorg
  exact if_pos h

/-- **C51 (copies on the NUMA nodes).**  The same for an array that was copied to the nodes, for any number of
nodes. -/
theorem C51_lookup_after_reorg {c : Codec T B} (hc : CodecOk c) (m : Nat → Nat → T) (npart nrow req ncol : Nat)
    (hp : 0 < npart) (hn : 0 < nrow) (hr : 0 < req) (hnlt : nrow < 4294967296)
    (hlt : nrow * ncol * c.size < 18446744073709551616) :
    ∃ ws : List (Worker T B), numaReorgAll c (rowsFrom m ncol 0 nrow) npart nrow req ncol = .ok ws ∧
      ∀ row, row < nrow → thdData ws nrow req row = .ok (rowOf m ncol row) := by
  have hsplit : nrow / npart * (npart - 1) + (nrow / npart + nrow % npart) = nrow := by
    obtain ⟨p, rfl⟩ : ∃ p, npart = p + 1 := ⟨npart - 1, by omega⟩
    have := Nat.div_add_mod nrow (p + 1)
    have e : nrow / (p + 1) * p + nrow / (p + 1) = (p + 1) * (nrow / (p + 1)) := by ring
    rw [Nat.add_sub_cancel]
    omega
  have hblk : ∀ thd, thd < Partition.effThreads req nrow →
      (Worker.create c [] nrow req ncol 0 thd : Worker T B).numaReorg c (rowsFrom m ncol 0 nrow) ncol =
        .ok { (Worker.create c [] nrow req ncol 0 thd : Worker T B) with
          localData := some (rowsFrom m ncol (Partition.ridLen nrow (Partition.effThreads req nrow) thd).1
            (Partition.ridLen nrow (Partition.effThreads req nrow) thd).2) } := by
    intro thd ht
    obtain ⟨hb, -⟩ := block_le hn hr (by omega) ht
    have hw : ∀ b, b = Partition.ridLen nrow (Partition.effThreads req nrow) thd →
        (Worker.create c [] nrow req ncol 0 thd : Worker T B).startRid = u32 (b.1 + 0) ∧
        (Worker.create c [] nrow req ncol 0 thd : Worker T B).dataSize = u64 (u64 (c.size * b.2) * ncol) := by
      rintro b rfl
      exact ⟨rfl, rfl⟩
    generalize Partition.ridLen nrow (Partition.effThreads req nrow) thd = b at *
    obtain ⟨w1, w2⟩ := hw b rfl
    have h1 : b.1 * ncol ≤ nrow * ncol := Nat.mul_le_mul_right _ (by omega)
    have h2 : nrow * ncol ≤ nrow * ncol * c.size := Nat.le_mul_of_pos_right _ hc.pos
    have h3 : c.size * b.2 * ncol ≤ nrow * ncol * c.size :=
      calc c.size * b.2 * ncol = b.2 * ncol * c.size := by ring
        _ ≤ nrow * ncol * c.size := Nat.mul_le_mul_right _ (Nat.mul_le_mul_right _ (by omega))
    have h4 : (b.1 + b.2) * ncol ≤ nrow * ncol := Nat.mul_le_mul_right _ (by omega)
    rw [Nat.add_mul] at h4
    have h5 : c.size * b.2 * ncol / c.size = b.2 * ncol := by
      rw [show c.size * b.2 * ncol = c.size * (b.2 * ncol) by ring, Nat.mul_div_cancel_left _ hc.pos]
    rw [numaReorg_ok c _ ncol _ (a := b.1 * ncol) (l := b.2 * ncol)
      (by rw [w1, Nat.add_zero, u32_of_lt (show b.1 < 4294967296 by omega), u64_of_lt (by omega)])
      (by rw [w2, u64_mul (by omega), h5]) (by rw [length_rowsFrom]; omega), slice_rowsFrom m ncol (by omega)]
  refine ⟨_, (?_ : _ = Except.ok ((List.range (Partition.effThreads req nrow)).map fun thd =>
        { (Worker.create c [] nrow req ncol 0 thd : Worker T B) with
          localData := some (rowsFrom m ncol (Partition.ridLen nrow (Partition.effThreads req nrow) thd).1
            (Partition.ridLen nrow (Partition.effThreads req nrow) thd).2) })), ?_⟩
  · unfold numaReorgAll
    rw [if_neg (by omega), if_neg]
    · exact mapM_ok _ _ _ fun thd ht => hblk thd (List.mem_range.1 ht)
    · have h0 : nrow / npart + nrow % npart ≤ nrow := by omega
      rw [u32_of_lt (by omega), hsplit, u64_of_lt (by omega)]
      simp
  intro row hrow
  obtain ⟨h1, h2, h3⟩ := Partition.getThdData_spec hr hrow hnlt
  unfold thdData
  dsimp only at h1 h2 h3 ⊢
  generalize Partition.getThdData nrow req row = p at *
  rw [List.getElem?_map, List.getElem?_range h1]
  simp only [Option.map_some]
  unfold Worker.localRow Worker.create
  dsimp only
  obtain ⟨hb, hb0⟩ := block_le hn hr (by omega) h1
  generalize Partition.ridLen nrow (Partition.effThreads req nrow) p.1 = b at *
  have hle : p.2 * ncol ≤ nrow * ncol * c.size :=
    Nat.le_trans (Nat.mul_le_mul_right _ (show p.2 ≤ nrow by omega)) (Nat.le_mul_of_pos_right _ hc.pos)
  rw [u64_of_lt (by omega), if_pos]
  · have h4 := slice_rowsFrom m ncol (n := nrow) (a := row) (len := 1) (by omega)
    rw [Nat.one_mul, rowsFrom_one] at h4
    rw [← h4]
    have h5 := slice_rowsFrom m ncol (n := nrow) (a := b.1) (len := b.2) (by omega)
    have h6 : (p.2 + 1) * ncol ≤ b.2 * ncol := Nat.mul_le_mul_right _ h2
    rw [Nat.succ_mul] at h6
    rw [← h5, List.drop_take, List.take_take, List.drop_drop, Nat.min_eq_left (by omega),
      show b.1 * ncol + p.2 * ncol = row * ncol by rw [← h3]; ring]
  · rw [length_rowsFrom]
    calc p.2 * ncol + ncol = (p.2 + 1) * ncol := by ring
      _ ≤ b.2 * ncol := Nat.mul_le_mul_right _ h2

/-- Seven rows on three workers and two nodes. -/
example : ∃ ws : List (Worker Nat (Nat × Nat)),
    numaReorgAll demoCodec (rowsFrom (fun r j => 10 * r + j) 2 0 7) 2 7 3 2 = .ok ws ∧
      thdData ws 7 3 6 = .ok [60, 61] := by
  obtain ⟨ws, e, h⟩ := C51_lookup_after_reorg demoCodec_ok (fun r j => 10 * r + j) 2 7 3 2 (by decide) (by decide)
    (by decide) (by decide) (by decide)
  exact ⟨ws, e, h 6 (by decide)⟩

/-- **C51 (short files).**  Reading more values than the file has fails an assertion; nothing is made up. -/
theorem C51_short_file {c : Codec T B} (hc : CodecOk c) (l : List T) (nrow ncol : Nat) (h : l.length < nrow * ncol)
    (hlt : nrow * ncol * c.size < 18446744073709551616) :
    (BinIo.openRead (l.flatMap c.enc) nrow ncol).read c = .error .assertFail := by
  have h0 : c.size * ncol * nrow = nrow * ncol * c.size := by ring
  unfold BinIo.read BinIo.openRead
  dsimp only
  rw [u64_mul (by omega), h0]
  have := fread_short hc l (a := 0) (len := nrow * ncol) (by omega)
  rw [Nat.zero_mul] at this
  cases hh : fread (⟨l.flatMap c.enc, 0⟩ : File B) (nrow * ncol * c.size) with
  | mk o f =>
    rw [hh] at this
    simp only at this
    subst this
    rfl

example : (BinIo.openRead ([1, 2, 3, 4, 5].flatMap demoCodec.enc) 2 3).read demoCodec = .error .assertFail :=
  C51_short_file demoCodec_ok _ 2 3 (by decide) (by decide)

/-- C51 limit: the empty matrix cannot be read (or written): `fread` of no bytes returns 0, which the
assertion takes for a failure. -/
theorem C51_limit_empty_matrix (c : Codec T B) (bytes : List B) (nrow ncol : Nat) (h : nrow * ncol = 0) :
    (BinIo.openRead bytes nrow ncol).read c = .error .assertFail := by
  unfold BinIo.read BinIo.openRead fread
  have : u64 (u64 (c.size * ncol) * nrow) = 0 := by
    have h0 : c.size * ncol * nrow = 0 := by
      rw [Nat.mul_assoc, Nat.mul_comm ncol, h, Nat.mul_zero]
    rw [u64_mul (by omega), h0]
  simp [this]

/-! ### `store_cluster` -/

theorem storeLoop_ok {c : Codec T B} (hc : CodecOk c) (m : Nat → Nat → T) (ncol : Nat) (hcol : 0 < ncol)
    (assign : Nat → Nat) (id : Nat) : ∀ (rows : List Nat) (left : Nat) (f : File B), f.pos = f.bytes.length →
    storeLoop c (rowOf m ncol) assign id rows left f =
      if left ≤ (rows.filter fun r => assign r = id).length then
        .ok ⟨f.bytes ++ (((rows.filter fun r => assign r = id).take left).flatMap (rowOf m ncol)).flatMap c.enc,
          f.bytes.length + left * ncol * c.size⟩
      else .error .assertFail
  | [], left, f, hp => by
    unfold storeLoop
    cases left with
    | zero => cases f; simp at hp ⊢; exact hp
    | succ n => simp
  | i :: rows, left, f, hp => by
    unfold storeLoop
    by_cases h0 : left = 0
    · subst h0
      cases f; simp at hp ⊢; exact hp
    · rw [if_neg h0]
      obtain ⟨left, rfl⟩ : ∃ l, left = l + 1 := ⟨left - 1, by omega⟩
      by_cases ha : assign i = id
      · rw [if_pos ha]
        have hw : (rowOf m ncol i).flatMap c.enc ≠ [] := by
          intro hh
          have := length_enc hc (rowOf m ncol i)
          rw [hh, List.length_nil, length_rowOf] at this
          have := Nat.mul_pos hcol hc.pos
          omega
        have hlen : ((rowOf m ncol i).flatMap c.enc).length = ncol * c.size := by
          rw [length_enc hc, length_rowOf]
        have e1 : fwrite f ((rowOf m ncol i).flatMap c.enc) =
            (true, ⟨f.bytes ++ (rowOf m ncol i).flatMap c.enc, f.bytes.length + ncol * c.size⟩) := by
          unfold fwrite
          have : decide ((rowOf m ncol i).flatMap c.enc ≠ []) = true := by simpa using hw
          rw [this, hp, hlen]
          simp
        rw [e1]
        dsimp only
        rw [Nat.add_sub_cancel, storeLoop_ok hc m ncol hcol assign id rows left _ (by simp [hlen])]
        rw [List.filter_cons_of_pos (by simpa using ha)]
        simp only [List.length_cons, List.take_succ_cons, List.flatMap_cons, List.flatMap_append, List.length_append, hlen,
          Nat.add_le_add_iff_right, List.append_assoc]
        have : f.bytes.length + (ncol * c.size + left * ncol * c.size) = f.bytes.length + (left + 1) * ncol * c.size := by ring
        rw [Nat.add_assoc, this]
      · rw [if_neg ha, storeLoop_ok hc m ncol hcol assign id rows (left + 1) f hp]
        rw [List.filter_cons_of_neg (by simpa using ha)]

/-- **C51 (stored clusters).**  Storing a cluster of the right size writes exactly its rows, in order, and
the file can be read back as a matrix of that many rows. -/
theorem C51_store_cluster {c : Codec T B} (hc : CodecOk c) (m : Nat → Nat → T) (nrow ncol id : Nat)
    (assign : Nat → Nat) (ids : List Nat) (hids : ids = (List.range nrow).filter fun r => assign r = id)
    (hne : ids ≠ []) (hcol : 0 < ncol) (hlt : ids.length * ncol * c.size < 18446744073709551616) :
    ∃ f y, storeCluster c (rowOf m ncol) assign nrow id ids.length = .ok f ∧
      (BinIo.openRead f.bytes ids.length ncol).read c = .ok (ids.flatMap (rowOf m ncol), y) := by
  have e := storeLoop_ok hc m ncol hcol assign id (List.range nrow) ids.length ⟨[], 0⟩ rfl
  rw [← hids, if_pos (Nat.le_refl _), List.take_length] at e
  have hlen := length_flatMap_const (length_rowOf m ncol) ids
  have hpos : 0 < ids.length * ncol := Nat.mul_pos (List.length_pos_iff.2 hne) hcol
  have h0 : c.size * ncol * ids.length = ids.length * ncol * c.size := by ring
  have hf := fread_values hc (ids.flatMap (rowOf m ncol)) (a := 0) hpos (by omega)
  rw [Nat.zero_mul, Nat.zero_add, List.drop_zero, List.take_of_length_le (by omega)] at hf
  refine ⟨_, ?_, e, ?_⟩
  · exact ⟨⟨(ids.flatMap (rowOf m ncol)).flatMap c.enc, ids.length * ncol * c.size⟩, ids.length, ncol⟩
  · unfold BinIo.read BinIo.openRead
    dsimp only
    rw [u64_mul (by omega), h0, List.nil_append, hf]
    dsimp only
    rw [decodeAll_enc' hc _ hlen.symm]

example : ∃ f y, storeCluster demoCodec (rowOf (fun r j => 10 * r + j) 2) (fun r => r % 2) 5 1 2 = .ok f ∧
    (BinIo.openRead f.bytes 2 2).read demoCodec = .ok ([10, 11, 30, 31], y) :=
  C51_store_cluster demoCodec_ok (fun r j => 10 * r + j) 5 2 1 (fun r => r % 2) [1, 3] (by decide) (by decide)
    (by decide) (by decide)

/-! ## C76 -/

theorem streamRead_values {c : Codec T B} (hc : CodecOk c) (l : List T) (tail : List B) {a len : Nat} (nr nc : Nat)
    (h : a + len ≤ l.length) :
    Reader.streamRead ⟨⟨l.flatMap c.enc ++ tail, a * c.size⟩, false, nr, nc⟩ (len * c.size) =
      (some (((l.drop a).take len).flatMap c.enc), ⟨⟨l.flatMap c.enc ++ tail, (a + len) * c.size⟩, false, nr, nc⟩) := by
  have h1 : a * c.size + len * c.size ≤ (l.flatMap c.enc).length := by
    rw [length_enc hc, ← Nat.add_mul]
    exact Nat.mul_le_mul_right _ h
  unfold Reader.streamRead
  rw [if_neg (by simp), if_pos (by simp only [List.length_append]; omega)]
  simp only
  rw [List.drop_append_of_le_length (by omega), List.take_append_of_le_length (by rw [List.length_drop]; omega),
    drop_flatMap_const hc.len, take_flatMap_const hc.len, ← Nat.add_mul]

theorem binLines_ok {c : Codec T B} (hc : CodecOk c) (m : Nat → Nat → T) (nrow ncol : Nat) (hcol : 0 < ncol)
    (tail : List B) (htl : tail.length < ncol * c.size) : ∀ (todo done fuel nr : Nat), done + todo = nrow → todo < fuel →
    ∃ y, Reader.binLines c ncol fuel
      ⟨⟨(rowsFrom m ncol 0 nrow).flatMap c.enc ++ tail, done * ncol * c.size⟩, false, nr, ncol⟩ =
      .ok ((List.range' done todo).map (rowOf m ncol), y) ∧ y.nrow = nr + todo := by
  intro todo
  induction todo with
  | zero =>
    intro done fuel nr hd hf
    have hd' : done = nrow := by omega
    subst hd'
    obtain ⟨fuel, rfl⟩ : ∃ f, fuel = f + 1 := ⟨fuel - 1, by omega⟩
    have hlen : ((rowsFrom m ncol 0 done).flatMap c.enc).length = done * ncol * c.size := by
      rw [length_enc hc, length_rowsFrom]
    unfold Reader.binLines Reader.binReadline Reader.streamRead
    rw [if_neg (show ¬ ncol = 0 by omega), if_neg (by simp), if_neg (by simp only [List.length_append]; omega)]
    exact ⟨_, rfl, rfl⟩
  | succ todo ih =>
    intro done fuel nr hd hf
    obtain ⟨fuel, rfl⟩ : ∃ f, fuel = f + 1 := ⟨fuel - 1, by omega⟩
    have hfr := streamRead_values hc (rowsFrom m ncol 0 nrow) tail (a := done * ncol) (len := ncol) nr ncol (by
        rw [length_rowsFrom]
        calc done * ncol + ncol = (done + 1) * ncol := by ring
          _ ≤ nrow * ncol := Nat.mul_le_mul_right _ (by omega))
    have hsl := slice_rowsFrom m ncol (n := nrow) (a := done) (len := 1) (by omega)
    rw [Nat.one_mul, rowsFrom_one] at hsl
    rw [hsl, show done * ncol + ncol = (done + 1) * ncol by ring] at hfr
    obtain ⟨y, e, hy⟩ := ih (done + 1) fuel (nr + 1) (by omega) (by omega)
    unfold Reader.binLines Reader.binReadline
    rw [if_neg (show ¬ ncol = 0 by omega)]
    simp only [hfr]
    rw [decodeAll_enc' hc _ (length_rowOf m ncol done).symm]
    simp only [e]
    refine ⟨y, ?_, by omega⟩
    rw [List.range'_succ]
    rfl

/-- **C76 (binary reader, rows).**  Reading lines until the reader says no gives every row of the file
once, in order, and the reader's row count is the number of rows; bytes after the last complete row are
ignored. -/
theorem C76_binary_lines {c : Codec T B} (hc : CodecOk c) (m : Nat → Nat → T) (nrow ncol : Nat) (hcol : 0 < ncol)
    (bytes tail : List B) (hst : Stores c bytes m nrow ncol) (htl : tail.length < ncol * c.size)
    (fuel : Nat) (hf : nrow < fuel) :
    ∃ y, Reader.binLines c ncol fuel { Reader.binOpen (bytes ++ tail) with ncol := ncol } =
      .ok ((List.range nrow).map (rowOf m ncol), y) ∧ y.nrow = nrow := by
  obtain ⟨y, e, hy⟩ := binLines_ok hc m nrow ncol hcol tail htl nrow 0 fuel 0 (by omega) hf
  rw [Nat.zero_mul, Nat.zero_mul] at e
  refine ⟨y, ?_, by omega⟩
  unfold Reader.binOpen
  rw [hst, List.range_eq_range']
  exact e

/-- **C76 (binary reader, seek).**  Seeking to a row and reading some rows gives those rows. -/
theorem C76_binary_seek {c : Codec T B} (hc : CodecOk c) (m : Nat → Nat → T) (nrow ncol first len : Nat)
    (bytes : List B) (hst : Stores c bytes m nrow ncol) (h : first + len ≤ nrow) (hpos : 0 < len * ncol) :
    ∃ y, ((Reader.binOpen bytes).seek (first * ncol * c.size)).binRead c (len * ncol) =
      .ok (some (rowsFrom m ncol first len), y) := by
  have hfr := streamRead_values hc (rowsFrom m ncol 0 nrow) [] (a := first * ncol) (len := len * ncol) 0 0 (by
    rw [length_rowsFrom, ← Nat.add_mul]
    exact Nat.mul_le_mul_right _ h)
  rw [List.append_nil, slice_rowsFrom m ncol h, ← hst] at hfr
  have e0 : (Reader.binOpen bytes).seek (first * ncol * c.size) = ⟨⟨bytes, first * ncol * c.size⟩, false, 0, 0⟩ := rfl
  rw [e0]
  unfold Reader.binRead
  rw [if_neg (show ¬ len * ncol = 0 by omega)]
  simp only [hfr]
  rw [decodeAll_enc' hc _ (length_rowsFrom m ncol _ _).symm]
  exact ⟨_, rfl⟩

example : ∃ y, ((Reader.binOpen ((rowsFrom (fun r j => 10 * r + j) 2 0 4).flatMap demoCodec.enc)).seek 32).binRead
    demoCodec 2 = .ok (some [20, 21], y) :=
  C76_binary_seek demoCodec_ok (fun r j => 10 * r + j) 4 2 2 1 _ rfl (by decide) (by decide)

example : ∃ y, Reader.binLines demoCodec 2 5
    { Reader.binOpen ((rowsFrom (fun r j => 10 * r + j) 2 0 3).flatMap demoCodec.enc ++ [(0, 9)]) with ncol := 2 } =
    .ok ([[0, 1], [10, 11], [20, 21]], y) ∧ y.nrow = 3 :=
  C76_binary_lines demoCodec_ok (fun r j => 10 * r + j) 3 2 (by decide) _ _ rfl (by decide) 5 (by decide)

/-- **C76 is violated** after the end of the file has been met: seeking back has no effect, because the
stream's failbit stays set, and the read gives nothing, which the caller is not told. -/
theorem C76_violated_seek_after_end : ¬ ∀ (l : List Nat) (fuel : Nat) (vs : List (List Nat)) (x : Reader (Nat × Nat)),
    0 < l.length →
    Reader.binLines demoCodec 1 fuel { Reader.binOpen (l.flatMap demoCodec.enc) with ncol := 1 } = .ok (vs, x) →
    ∃ y, (x.seek 0).binRead demoCodec l.length = .ok (some l, y) := by
  intro h
  obtain ⟨y, e⟩ := h [5] 5 [[5]] ⟨⟨[5].flatMap demoCodec.enc, 8⟩, true, 1, 1⟩ (by decide) rfl
  have e2 : (Reader.seek ⟨⟨[5].flatMap demoCodec.enc, 8⟩, true, 1, 1⟩ 0).binRead demoCodec [5].length =
      .ok (none, ⟨⟨[5].flatMap demoCodec.enc, 8⟩, true, 1, 1⟩) := rfl
  rw [e2] at e
  simp at e

theorem putNums_all (data l : List T) (pos : Nat) (h : pos + l.length ≤ data.length) :
    putNums data pos l = .ok (data.take pos ++ l ++ data.drop (pos + l.length)) := if_pos h

/-- **C76 (text reader, rows; partial).**  A text file whose lines all have as many numbers as the vector
is delivered line by line.  Missing: files with a line of another length (see the violations). -/
theorem C76_text_lines_partial : ∀ (lines : List (List T)) (v : List T), v ≠ [] →
    (∀ l ∈ lines, l.length = v.length) → TextReader.lineLoop lines v = .ok lines
  | [], _, _, _ => rfl
  | l :: ls, v, hv, h => by
    have hl := h l (by simp)
    have e1 : (TextReader.mk (l :: ls) 0).readline v = .ok (true, l, ⟨ls, 1⟩) := by
      unfold TextReader.readline
      rw [if_neg hv]
      simp only [putNums_all v l 0 (by omega)]
      simp [hl]
    have hl0 : l ≠ [] := by
      intro hh
      rw [hh] at hl
      exact hv (List.length_eq_zero_iff.1 hl.symm)
    unfold TextReader.lineLoop
    simp only [e1, C76_text_lines_partial ls l hl0 fun x hx => by rw [h x (by simp [hx]), hl]]

theorem textLoop_ok : ∀ (ls : List (List T)) (pos nrow : Nat) (data : List T), pos + ls.flatten.length ≤ data.length →
    textLoop ls pos data nrow =
      .ok (data.take pos ++ ls.flatten ++ data.drop (pos + ls.flatten.length), nrow + ls.length)
  | [], pos, nrow, data, _ => by simp [textLoop]
  | l :: ls, pos, nrow, data, h => by
    simp only [List.flatten_cons, List.length_append] at h
    unfold textLoop
    simp only [putNums_all data l pos (by omega)]
    have hlen : (data.take pos ++ l ++ data.drop (pos + l.length)).length = data.length := by
      simp only [List.length_append, List.length_take, List.length_drop]; omega
    rw [textLoop_ok ls (pos + l.length) (nrow + 1) _ (by rw [hlen]; omega)]
    have h1 : (data.take pos ++ l).length = pos + l.length := by
      rw [List.length_append, List.length_take]; omega
    rw [List.take_append_of_le_length (by omega), List.take_of_length_le (by omega), List.drop_append,
      List.drop_eq_nil_of_le (by omega), List.nil_append, List.drop_drop, h1]
    simp only [List.flatten_cons, List.length_append, List.length_cons, Except.ok.injEq, Prod.mk.injEq]
    constructor
    · rw [show pos + l.length + (pos + l.length + ls.flatten.length - (pos + l.length)) = pos + (l.length + ls.flatten.length) by omega]
      simp [List.append_assoc]
    · omega

/-- **C76 (text reader, all at once).**  If the vector has room for all numbers of the file, it receives
them in order, and the reader's row count is the number of lines. -/
theorem C76_text_read (x : TextReader T) (data : List T) (hd : data ≠ []) (h : x.lines.flatten.length = data.length) :
    ∃ y, x.read data = .ok (x.lines.flatten, y) ∧ y.nrow = x.nrow + x.lines.length := by
  unfold TextReader.read
  rw [if_neg hd, textLoop_ok x.lines 0 x.nrow data (by omega)]
  refine ⟨⟨[], x.nrow + x.lines.length⟩, ?_, rfl⟩
  simp [h]

example : TextReader.lineLoop [[1, 2, 3], [4, 5, 6]] [0, 0, 0] = .ok [[1, 2, 3], [4, 5, 6]] :=
  C76_text_lines_partial _ _ (by decide) (by decide)

example : ∃ y, (TextReader.mk [[1, 2, 3], [4, 5, 6]] 0).read [0, 0, 0, 0, 0, 0] = .ok ([1, 2, 3, 4, 5, 6], y) ∧ y.nrow = 2 :=
  C76_text_read _ _ (by decide) (by decide)

/-- **C76 is violated** by a line with more numbers than the vector: they are written past its end. -/
theorem C76_violated_long_line : ¬ ∀ (lines : List (List Nat)) (v : List Nat), v ≠ [] →
    TextReader.lineLoop lines v ≠ .error .ub := by
  intro h
  exact h [[1, 2, 3]] [0, 0] (by decide) rfl

/-- **C76 is violated** by a blank or short line: the reader reports success and the vector still has
the numbers of the line before. -/
theorem C76_violated_short_line : ¬ ∀ (lines : List (List Nat)) (v : List Nat) (vs : List (List Nat)), v ≠ [] →
    TextReader.lineLoop lines v = .ok vs → vs.flatten = lines.flatten := by
  intro h
  have := h [[1, 2], []] [0, 0] [[1, 2], [1, 2]] (by decide) rfl
  revert this
  decide

/-! ## C75 -/

variable {α : Type _} [DecidableEq α]

theorem vEq_eq : ∀ (x y : List α), vEq x y =
    if x <+: y then .ok true else if y <+: x then .error .ub else .ok false
  | [], y => by simp [vEq]
  | a :: x, [] => by simp [vEq]
  | a :: x, b :: y => by
    unfold vEq
    by_cases h : a = b
    · subst h
      rw [if_pos rfl, vEq_eq x y]
      simp only [List.cons_prefix_cons, true_and]
    · rw [if_neg h]
      simp only [List.cons_prefix_cons, h, false_and, if_false]
      rw [if_neg]
      rintro ⟨h1, _⟩
      exact h h1.symm

/-- **C75 (vectors, partial).**  On vectors of the same length the equality helper decides equality.
Missing: vectors of different lengths (see `C75_violated_shorter`, `C75_violated_longer`). -/
theorem C75_vector_equality_partial (x y : List α) (h : x.length = y.length) : vEq x y = .ok (decide (x = y)) := by
  rw [vEq_eq]
  by_cases hxy : x = y
  · subst hxy
    simp
  · rw [if_neg fun hp => hxy (hp.eq_of_length h), if_neg fun hp => hxy (hp.eq_of_length h.symm).symm]
    simp [hxy]

example : vEq [1, 2, 3] [1, 2, 4] = .ok false := C75_vector_equality_partial _ _ rfl

/-- **C75 (results, partial).**  Two clustering results of the same shape compare equal exactly if their
assignments, sizes and centroids are the same.  Missing: results of different shapes. -/
theorem C75_result_equality_partial {R : Type _} [DecidableEq R] (x y : ClusterT R)
    (h1 : x.assignments.length = y.assignments.length) (h2 : x.counts.length = y.counts.length)
    (h3 : x.centroids.length = y.centroids.length) :
    x.eq y = .ok (decide (x.assignments = y.assignments ∧ x.counts = y.counts ∧ x.centroids = y.centroids)) := by
  unfold ClusterT.eq
  rw [C75_vector_equality_partial _ _ h1, C75_vector_equality_partial _ _ h2, C75_vector_equality_partial _ _ h3]
  by_cases e1 : x.assignments = y.assignments
  · by_cases e2 : x.counts = y.counts
    · simp [e1, e2]
    · simp [e1, e2]
  · simp [e1]

example : (ClusterT.mk 3 1 4 2 [0, 1, 1] [1, 2] [5, 6]).eq (ClusterT.mk 3 1 4 2 [0, 1, 1] [1, 2] [5, 7]) = .ok false :=
  C75_result_equality_partial _ _ rfl rfl rfl

/-- **C75 is violated**: a result that is a prefix of another, with fewer rows, compares equal to it. -/
theorem C75_violated_shorter : ¬ ∀ (x y : ClusterT Nat), x.eq y = .ok true → x.assignments = y.assignments := by
  intro h
  have := h ⟨1, 1, 0, 1, [0], [1], [7]⟩ ⟨2, 1, 0, 1, [0, 0], [1], [7]⟩ rfl
  revert this
  decide

/-- **C75 is violated**: comparing with a shorter result reads beyond its end. -/
theorem C75_violated_longer : ¬ ∀ (x y : ClusterT Nat), x.eq y ≠ .error .ub := by
  intro h
  exact h ⟨2, 1, 0, 1, [0, 0], [2], [7]⟩ ⟨1, 1, 0, 1, [0], [1], [7]⟩ rfl

/-- **C75 (arrays, partial).**  The array helper compares all elements but the last.
Missing: the last element (see `C75_violated_last_element`). -/
theorem C75_array_equality_partial (v1 v2 : List α) (len : Nat) (hl : 0 < len) (h1 : v1.length = len) (h2 : v2.length = len) :
    eqAll v1 v2 len = .ok (decide (v1.dropLast = v2.dropLast)) := by
  unfold eqAll
  rw [if_neg (by omega), vEq_eq, List.dropLast_eq_take, List.dropLast_eq_take, h1, h2]
  have hl1 : (v1.take (len - 1)).length = len - 1 := by rw [List.length_take]; omega
  by_cases h : v1.take (len - 1) = v2.take (len - 1)
  · rw [if_pos (by rw [h]; exact List.take_prefix _ _)]
    simp [h]
  · rw [if_neg, if_neg]
    · simp [h]
    · intro hp
      have := hp.length_le
      omega
    · intro hp
      have := List.prefix_iff_eq_take.1 hp
      rw [hl1] at this
      exact h this

/-- **C75 is violated**: two arrays that differ in the last element only compare equal. -/
theorem C75_violated_last_element : ¬ ∀ (v1 v2 : List Nat) (len : Nat), v1.length = len → v2.length = len → 0 < len →
    eqAll v1 v2 len = .ok true → v1 = v2 := by
  intro h
  have := h [1, 2] [1, 3] 2 rfl rfl (by decide) rfl
  revert this
  decide

/-- C75, constants: the helper says whether all elements have the value. -/
theorem C75_constant (v : List α) (x : α) : vEqConst v x = true ↔ ∀ y ∈ v, y = x := by
  unfold vEqConst
  rw [List.all_eq_true]
  simp

/-! ## C74 -/

theorem split_at {α : Type _} {x : α} : ∀ {a b t u : List α}, x ∉ a → x ∉ b → a ++ x :: t = b ++ x :: u → a = b ∧ t = u
  | [], [], _, _, _, _, h => ⟨rfl, by simpa using h⟩
  | [], y :: b, _, _, _, hb, h => by
    simp only [List.nil_append, List.cons_append, List.cons.injEq] at h
    exact absurd (by simp [h.1]) hb
  | y :: a, [], _, _, ha, _, h => by
    simp only [List.nil_append, List.cons_append, List.cons.injEq] at h
    exact absurd (by simp [h.1]) ha
  | y :: a, z :: b, t, u, ha, hb, h => by
    simp only [List.cons_append, List.cons.injEq] at h
    obtain ⟨h1, h2⟩ := split_at (fun hh => ha (by simp [hh])) (fun hh => hb (by simp [hh])) h.2
    exact ⟨by rw [h.1, h1], h2⟩

theorem showNat_digit (n : Nat) : ∀ ch ∈ showNat n, ch.isDigit = true := by
  intro ch h
  exact Nat.isDigit_of_mem_toDigits (by decide) (by decide) h

theorem showNat_inj {a b : Nat} (h : showNat a = showNat b) : a = b := by
  unfold showNat at h
  have h1 := Nat.ofDigitChars_toDigits (b := 10) (n := a) (by decide) (by decide)
  have h2 := Nat.ofDigitChars_toDigits (b := 10) (n := b) (by decide) (by decide)
  rw [← h1, ← h2, h]

/-- Joined pieces that do not contain the separator can be taken apart, if one knows how many there are. -/
theorem join_inj : ∀ (a b : List (List Char)), a.length = b.length → (∀ p ∈ a, ',' ∉ p) → (∀ p ∈ b, ',' ∉ p) →
    List.intercalate [','] a = List.intercalate [','] b → a = b
  | [], [], _, _, _, _ => rfl
  | [], _ :: _, h, _, _, _ => by simp at h
  | _ :: _, [], h, _, _, _ => by simp at h
  | [x], [y], _, _, _, h => by simpa [List.intercalate] using h
  | [_], _ :: _ :: _, h, _, _, _ => by simp at h
  | _ :: _ :: _, [_], h, _, _, _ => by simp at h
  | x :: x2 :: a, y :: y2 :: b, hl, ha, hb, h => by
    rw [List.intercalate_cons_cons, List.intercalate_cons_cons, List.append_assoc, List.append_assoc,
      List.singleton_append, List.singleton_append] at h
    obtain ⟨h1, h2⟩ := split_at (ha x (by simp)) (hb y (by simp)) h
    rw [h1, join_inj (x2 :: a) (y2 :: b) (by simpa using hl) (fun p hp => ha p (by simp [hp]))
      (fun p hp => hb p (by simp [hp])) h2]

theorem join_not_mem {ch : Char} (hch : ch ≠ ',') : ∀ (a : List (List Char)), (∀ p ∈ a, ch ∉ p) →
    ch ∉ List.intercalate [','] a
  | [], _ => by simp [List.intercalate]
  | [x], h => by
    have := h x (by simp)
    simpa [List.intercalate] using this
  | x :: x2 :: a, h => by
    rw [List.intercalate_cons_cons]
    simp only [List.mem_append, List.mem_singleton, not_or]
    exact ⟨⟨h x (by simp), hch⟩, join_not_mem hch (x2 :: a) fun p hp => h p (by simp [hp])⟩

theorem not_digit_mem {ch : Char} (h : ch.isDigit = false) (n : Nat) : ch ∉ showNat n := by
  intro hm
  rw [showNat_digit n ch hm] at h
  cases h

theorem map_showNat_inj : ∀ {a b : List Nat}, a.map showNat = b.map showNat → a = b
  | [], [], _ => rfl
  | [], _ :: _, h => by simp at h
  | _ :: _, [], h => by simp at h
  | x :: a, y :: b, h => by
    simp only [List.map_cons, List.cons.injEq] at h
    rw [showNat_inj h.1, map_showNat_inj h.2]

theorem rows_cons (x x2 : List Char) (a : List (List Char)) (t : List Char) :
    List.intercalate [','] ((x :: x2 :: a).map fun p => ['['] ++ p ++ [']']) ++ t =
      '[' :: (x ++ ']' :: ',' :: (List.intercalate [','] ((x2 :: a).map fun p => ['['] ++ p ++ [']']) ++ t)) := by
  rw [List.map_cons, List.map_cons, List.intercalate_cons_cons]
  simp

/-- The bracketed rows of numbers. -/
theorem rows_inj : ∀ (a b : List (List Char)) (t u : List Char), a.length = b.length →
    (∀ p ∈ a, ']' ∉ p) → (∀ p ∈ b, ']' ∉ p) →
    List.intercalate [','] (a.map fun p => ['['] ++ p ++ [']']) ++ t =
      List.intercalate [','] (b.map fun p => ['['] ++ p ++ [']']) ++ u → a = b
  | [], [], _, _, _, _, _, _ => rfl
  | [], _ :: _, _, _, h, _, _, _ => by simp at h
  | _ :: _, [], _, _, h, _, _, _ => by simp at h
  | [x], [y], t, u, _, ha, hb, h => by
    have h' : x ++ ']' :: t = y ++ ']' :: u := by simpa using h
    rw [(split_at (ha x (by simp)) (hb y (by simp)) h').1]
  | [_], _ :: _ :: _, _, _, h, _, _, _ => by simp at h
  | _ :: _ :: _, [_], _, _, h, _, _, _ => by simp at h
  | x :: x2 :: a, y :: y2 :: b, t, u, hl, ha, hb, h => by
    rw [rows_cons, rows_cons, List.cons.injEq] at h
    obtain ⟨h1, h2⟩ := split_at (ha x (by simp)) (hb y (by simp)) h.2
    rw [List.cons.injEq] at h2
    have h3 := rows_inj (x2 :: a) (y2 :: b) t u (by simpa using hl) (fun p hp => ha p (by simp [hp]))
      (fun p hp => hb p (by simp [hp])) h2.2
    rw [h1, h3]

/-- A result object in which the vectors have the lengths that the numbers say. -/
structure Shaped {R : Type _} (x : ClusterT R) : Prop where
  rows : x.assignments.length = x.nrow
  sizes : x.counts.length = x.k
  cents : x.centroids.length = x.k * x.ncol

theorem yaml_eq {R : Type _} {fmt : R → List Char} {x : ClusterT R} (h : Shaped x) : yaml fmt x =
    .ok ("k: ".toList ++ (showNat x.k ++ '\n' :: ("niter: ".toList ++ (showNat x.iters ++ '\n' ::
      ("nsamples: ".toList ++ (showNat x.nrow ++ '\n' :: ("dim: ".toList ++ (showNat x.ncol ++ '\n' ::
      ("size: [".toList ++ (List.intercalate [','] (x.counts.map showNat) ++ ']' :: ("\ncluster: [".toList ++
      (List.intercalate [','] (x.assignments.map showNat) ++ ']' :: ("\ncentroids: [".toList ++
      (List.intercalate [','] (((List.range x.k).map fun row =>
        List.intercalate [','] (((x.centroids.drop (row * x.ncol)).take x.ncol).map fmt)).map
          fun p => ['['] ++ p ++ [']']) ++ "]\n".toList)))))))))))))) := by
  unfold yaml showList showRows
  rw [if_pos (by rw [h.sizes]), if_pos (by rw [h.rows]), if_pos (by rw [h.cents]),
    List.take_of_length_le (by rw [h.sizes]), List.take_of_length_le (by rw [h.rows])]
  have e1 : "\nniter: ".toList = '\n' :: "niter: ".toList := rfl
  have e2 : "\nnsamples: ".toList = '\n' :: "nsamples: ".toList := rfl
  have e3 : "\ndim: ".toList = '\n' :: "dim: ".toList := rfl
  have e4 : "\nsize: [".toList = '\n' :: "size: [".toList := rfl
  have e5 : "]\ncluster: [".toList = ']' :: "\ncluster: [".toList := rfl
  have e6 : "]\ncentroids: [".toList = ']' :: "\ncentroids: [".toList := rfl
  rw [e1, e2, e3, e4, e5, e6, List.map_map]
  simp only [List.append_assoc, List.cons_append]
  rfl

theorem chunks {α : Type _} (n : Nat) : ∀ (k : Nat) (l : List α), l.length = k * n →
    (List.range k).flatMap (fun r => (l.drop (r * n)).take n) = l
  | 0, l, h => by
    rw [Nat.zero_mul] at h
    rw [List.length_eq_zero_iff.1 h]; rfl
  | k + 1, l, h => by
    rw [List.range_succ, List.flatMap_append]
    have h1 := chunks n k (l.take (k * n)) (by rw [List.length_take, h, Nat.succ_mul]; omega)
    have h2 : (List.range k).flatMap (fun r => (l.drop (r * n)).take n) =
        (List.range k).flatMap (fun r => ((l.take (k * n)).drop (r * n)).take n) := by
      apply List.flatMap_congr
      intro r hr
      rw [List.mem_range] at hr
      rw [List.drop_take, List.take_take]
      congr 1
      have : (r + 1) * n ≤ k * n := Nat.mul_le_mul_right _ hr
      rw [Nat.succ_mul] at this
      omega
    rw [h2, h1]
    simp only [List.flatMap_cons, List.flatMap_nil, List.append_nil]
    rw [List.take_of_length_le (l := l.drop (k * n)) (by rw [List.length_drop, h, Nat.succ_mul]; omega)]
    exact List.take_append_drop _ _

/-- **C74.**  Writing a result whose vectors have the right lengths succeeds, and the file determines
everything but the digits of the centroids that the formatting drops: two results with the same file have
the same number of clusters, iterations, rows and columns, the same sizes and assignments, and centroids
that are printed the same.  (Assumed of the formatting of numbers: it makes no comma or bracket.) -/
theorem C74_file_determines_result_partial {R : Type _} (fmt : R → List Char) (hf : ∀ v, ',' ∉ fmt v ∧ ']' ∉ fmt v)
    (x : ClusterT R) (hx : Shaped x) :
    ∃ file, yaml fmt x = .ok file ∧ ∀ y : ClusterT R, Shaped y → yaml fmt y = .ok file →
      y.k = x.k ∧ y.iters = x.iters ∧ y.nrow = x.nrow ∧ y.ncol = x.ncol ∧ y.counts = x.counts ∧
      y.assignments = x.assignments ∧ y.centroids.map fmt = x.centroids.map fmt := by
  refine ⟨_, yaml_eq hx, ?_⟩
  intro y hy h
  rw [yaml_eq hy] at h
  rw [Except.ok.injEq] at h
  have nl : ∀ n, '\n' ∉ showNat n := fun n => not_digit_mem (by decide) n
  obtain ⟨k1, h⟩ := split_at (nl _) (nl _) (List.append_cancel_left h)
  obtain ⟨k2, h⟩ := split_at (nl _) (nl _) (List.append_cancel_left h)
  obtain ⟨k3, h⟩ := split_at (nl _) (nl _) (List.append_cancel_left h)
  obtain ⟨k4, h⟩ := split_at (nl _) (nl _) (List.append_cancel_left h)
  have k1 := showNat_inj k1
  have k2 := showNat_inj k2
  have k3 := showNat_inj k3
  have k4 := showNat_inj k4
  have br : ∀ l : List Nat, ']' ∉ List.intercalate [','] (l.map showNat) := by
    intro l
    apply join_not_mem (by decide)
    intro p hp
    obtain ⟨n, _, rfl⟩ := List.mem_map.1 hp
    exact not_digit_mem (by decide) n
  have cm : ∀ l : List Nat, ∀ p ∈ l.map showNat, ',' ∉ p := by
    intro l p hp
    obtain ⟨n, _, rfl⟩ := List.mem_map.1 hp
    exact not_digit_mem (by decide) n
  obtain ⟨k5, h⟩ := split_at (br _) (br _) (List.append_cancel_left h)
  obtain ⟨k6, h⟩ := split_at (br _) (br _) (List.append_cancel_left h)
  have k5 := map_showNat_inj (join_inj _ _ (by simp [hx.sizes, hy.sizes, k1]) (cm _) (cm _) k5)
  have k6 := map_showNat_inj (join_inj _ _ (by simp [hx.rows, hy.rows, k3]) (cm _) (cm _) k6)
  have h := List.append_cancel_left h
  have rb : ∀ (z : ClusterT R), ∀ p ∈ ((List.range z.k).map fun row =>
        List.intercalate [','] (((z.centroids.drop (row * z.ncol)).take z.ncol).map fmt)), ']' ∉ p := by
    intro z p hp
    obtain ⟨r, _, rfl⟩ := List.mem_map.1 hp
    apply join_not_mem (by decide)
    intro q hq
    obtain ⟨v, _, rfl⟩ := List.mem_map.1 hq
    exact (hf v).2
  have k7 := rows_inj _ _ _ _ (by simp [k1]) (rb y) (rb x) h
  refine ⟨k1, k2, k3, k4, k5, k6, ?_⟩
  rw [k1, k4] at k7
  rw [← chunks x.ncol x.k x.centroids hx.cents, ← chunks x.ncol x.k y.centroids (by rw [hy.cents, k1, k4]),
    List.map_flatMap, List.map_flatMap]
  apply List.flatMap_congr
  intro r hr
  have k8 := (List.map_inj_left.1 k7) r hr
  rw [List.mem_range] at hr
  have hrl : (r + 1) * x.ncol ≤ x.k * x.ncol := Nat.mul_le_mul_right _ hr
  rw [Nat.succ_mul] at hrl
  refine join_inj _ _ ?_ ?_ ?_ k8
  · rw [List.length_map, List.length_map, List.length_take, List.length_take, List.length_drop, List.length_drop,
      hx.cents, hy.cents, k1, k4]
  · intro p hp
    obtain ⟨v, _, rfl⟩ := List.mem_map.1 hp
    exact (hf v).1
  · intro p hp
    obtain ⟨v, _, rfl⟩ := List.mem_map.1 hp
    exact (hf v).1

/-- Two clusters of three rows with two columns. -/
example : Shaped (ClusterT.mk 3 2 4 2 [0, 1, 1] [1, 2] [10, 20, 30, 40]) ∧
    yaml showNat (ClusterT.mk 3 2 4 2 [0, 1, 1] [1, 2] [10, 20, 30, 40]) = .ok
      "k: 2\nniter: 4\nnsamples: 3\ndim: 2\nsize: [1,2]\ncluster: [0,1,1]\ncentroids: [[10,20],[30,40]]\n".toList := by
  refine ⟨⟨rfl, rfl, rfl⟩, ?_⟩
  decide +kernel

/-- **C74 is violated** for the centroids: they are printed with six significant digits, so two results
with different centroids can have the same file, however the rounded numbers are written. -/
theorem C74_violated_centroid_digits (shw : ℚ → List Char) : ¬ ∀ x y : ClusterT ℚ, Shaped x → Shaped y →
    yaml (fun v => shw (sig6 v)) x = yaml (fun v => shw (sig6 v)) y → x.centroids = y.centroids := by
  intro h
  have e : sig6 (12345678 / 10000000) = sig6 (12345679 / 10000000) := by decide +kernel
  have := h ⟨1, 1, 1, 1, [0], [1], [12345678 / 10000000]⟩ ⟨1, 1, 1, 1, [0], [1], [12345679 / 10000000]⟩
    ⟨rfl, rfl, rfl⟩ ⟨rfl, rfl, rfl⟩ (by
      rw [yaml_eq ⟨rfl, rfl, rfl⟩, yaml_eq ⟨rfl, rfl, rfl⟩]
      simp [e])
  revert this
  decide +kernel

example : sig6 (12345678 / 10000000) = 123457 / 100000 := by decide +kernel

/-- The result object of a hierarchical run as `write` sees it.  Models libkcommon/types.cpp:46-72. -/
def ofHier {R : Type _} {n : Nat} (nrow iters : Nat) (r : Compact.Result R n) : ClusterT R :=
  ⟨nrow, n, iters, r.k, r.assignments, r.counts, (List.range r.k).flatMap fun i => List.ofFn (r.centroids i)⟩

/-- **C74 is violated** by a hierarchical run that records a cluster without rows (here on four equal rows;
compiled with the macro `BIND`, without which `verify_consistency` aborts first): the number of clusters
counts it, the vector of sizes does not, and writing the result reads beyond the end of that vector. -/
theorem C74_violated_empty_cluster (fmt : ℚ → List Char) :
    ∃ (c : Hclust.Cfg ℚ ℚ 1) (it : Hclust.HInit ℚ 1) (sched : Nat → Nat → List Nat) (fuel : Nat)
      (s : Hclust.St ℚ 1) (ids : List Nat) (res : Compact.Result ℚ 1), Hclust.Sane c ∧ 2 ≤ c.minSize ∧ 1 ≤ c.maxIters ∧
      Hclust.run c it sched fuel = .ok (some s) ∧ ((List.range 16).filter fun i => (s.final i).isSome) = ids ∧
      Hclust.result c ids s = .ok res ∧ yaml fmt (ofHier c.nrow c.maxIters res) = .error .ub := by
  have hw : (match Hclust.run (Hclust.demo [5, 5, 5, 5] 2 1 2) (.forgy 0 1) (fun _ _ => [0, 0, 0, 0]) 3 with
    | .ok (some s) =>
      match Hclust.result (Hclust.demo [5, 5, 5, 5] 2 1 2) [2, 3, 4] s with
      | .ok r => decide (r.counts = [4] ∧ r.k = 3 ∧
        ((List.range 16).filter fun i => (s.final i).isSome) = [2, 3, 4])
      | _ => false
    | _ => false) = true := by decide +kernel
  cases hr : Hclust.run (Hclust.demo [5, 5, 5, 5] 2 1 2) (.forgy 0 1) (fun _ _ => [0, 0, 0, 0]) 3 with
  | error e => rw [hr] at hw; cases hw
  | ok o =>
    cases o with
    | none => rw [hr] at hw; cases hw
    | some s =>
      rw [hr] at hw
      simp only at hw
      cases hres : Hclust.result (Hclust.demo [5, 5, 5, 5] 2 1 2) [2, 3, 4] s with
      | error e => rw [hres] at hw; cases hw
      | ok res =>
        rw [hres] at hw
        simp only [decide_eq_true_eq] at hw
        refine ⟨Hclust.demo [5, 5, 5, 5] 2 1 2, _, _, _, s, [2, 3, 4], res,
          ⟨by decide, by decide, by decide, by decide, by decide⟩, by decide, by decide, hr, hw.2.2, hres, ?_⟩
        unfold yaml showList ofHier
        dsimp only
        rw [if_neg (by rw [hw.1, hw.2.1]; decide)]

end Knor.Io
