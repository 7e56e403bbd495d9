import Verif.Basic
import Verif.Model.Partition
import Mathlib.Data.Int.Log
import Mathlib.Algebra.Order.Round
import Mathlib.Data.Rat.Floor
import Mathlib.Algebra.Order.Field.Rat

/-!
# Files: `bin_io`, the readers, `thread::numa_alloc_mem`, `store_cluster`, `cluster_t::write`

Models libkcommon/io.hpp, libkcommon/io.cpp, libman/thread.cpp:109-134, libkcommon/types.cpp:106-166
and the comparison helpers of libkcommon/util.hpp:57-74.

* A file is its bytes and a position.  `B` is the type of bytes.
* The default build (no `RELEASE`, so no `NDEBUG`, Makefile.common:51-53) is modelled: a short read or
  write fails an assertion.
* Opening is assumed to succeed.
-/

namespace Knor.Io

open Knor

variable {T B : Type _}

/-- How a value is stored: `size` is `sizeof(T)`, `enc` its bytes and `dec` the value of such bytes.
Models the `sizeof(T)` of libkcommon/io.hpp:233-234 and 307-346. -/
structure Codec (T B : Type _) where
  size : Nat
  enc : T → List B
  dec : List B → T

/-- A C `FILE`, or the buffer of an `ifstream`: contents and position.  Models libkcommon/io.hpp:131 and 264. -/
structure File (B : Type _) where
  bytes : List B
  pos : Nat

/-- `fread(ptr, nbytes, 1, f)`: the bytes read if it returns 1.  With `nbytes = 0` it returns 0.
Models the calls of libkcommon/io.hpp:307-338. -/
def fread (f : File B) (nbytes : Nat) : Option (List B) × File B :=
  if nbytes = 0 then (none, f)
  else if f.pos + nbytes ≤ f.bytes.length then
    (some ((f.bytes.drop f.pos).take nbytes), { f with pos := f.pos + nbytes })
  else (none, { f with pos := max f.pos f.bytes.length })

/-- `fwrite(ptr, nbytes, 1, f)`, inside or at the end of the file.  Models the calls of libkcommon/io.hpp:344-346. -/
def fwrite (f : File B) (bs : List B) : Bool × File B :=
  (bs ≠ [], ⟨f.bytes.take f.pos ++ bs ++ f.bytes.drop (f.pos + bs.length), f.pos + bs.length⟩)

/-- The values in a buffer that has been filled with bytes.  Models the casts of libkcommon/io.hpp:233-234 and 325. -/
def decodeAll (c : Codec T B) : Nat → List B → List T
  | 0, _ => []
  | m + 1, bs => c.dec (bs.take c.size) :: decodeAll c m (bs.drop c.size)

/-! ## `bin_io` -/

/-- A `bin_io`.  Models libkcommon/io.hpp:261-288. -/
structure BinIo (B : Type _) where
  f : File B
  nrow : Nat
  ncol : Nat

/-- `bin_io(fn, nrow, ncol, "rb")`.  Models libkcommon/io.hpp:283-288. -/
def BinIo.openRead (bytes : List B) (nrow ncol : Nat) : BinIo B := ⟨⟨bytes, 0⟩, nrow, ncol⟩

/-- `bin_io(fn, "wb")`; `nrow` and `ncol` are not set and not used by `write`.
Models libkcommon/io.hpp:278-281. -/
def BinIo.openWrite : BinIo B := ⟨⟨[], 0⟩, 0, 0⟩

/-- `readline`, both versions.  Models libkcommon/io.hpp:303-320. -/
def BinIo.readline (c : Codec T B) (x : BinIo B) : Res (List T × BinIo B) :=
  match fread x.f (u64 (c.size * x.ncol)) with
  | (none, _) => .error .assertFail
  | (some bs, f) => .ok (decodeAll c x.ncol bs, { x with f := f })

/-- `read`, both versions.  Models libkcommon/io.hpp:322-340. -/
def BinIo.read (c : Codec T B) (x : BinIo B) : Res (List T × BinIo B) :=
  match fread x.f (u64 (u64 (c.size * x.ncol) * x.nrow)) with
  | (none, _) => .error .assertFail
  | (some bs, f) => .ok (decodeAll c (x.nrow * x.ncol) bs, { x with f := f })

/-- `write(data, numel)` with `numel` the number of elements of `data`.
Models libkcommon/io.hpp:342-352. -/
def BinIo.write (c : Codec T B) (x : BinIo B) (data : List T) : Res (BinIo B) :=
  match fwrite x.f (data.flatMap c.enc) with
  | (false, _) => .error .assertFail
  | (true, f) => .ok { x with f := f }

/-- Several calls of `write`.  Models calls of libkcommon/io.hpp:342-352. -/
def BinIo.writes (c : Codec T B) : List (List T) → BinIo B → Res (BinIo B)
  | [], x => .ok x
  | d :: ds, x =>
    match x.write c d with
    | .error e => .error e
    | .ok y => BinIo.writes c ds y

/-- `operator bool`: there is more to read.  Models libkcommon/io.hpp:354-356. -/
def BinIo.more (c : Codec T B) (x : BinIo B) : Bool := x.f.pos ≠ u64 (u64 (x.nrow * x.ncol) * c.size)

/-- `while (br) use(br.readline());`, at most `fuel` times; the usual way to use `operator bool`.
Models calls of libkcommon/io.hpp:303-320 and 354-356. -/
def BinIo.readLines (c : Codec T B) : Nat → BinIo B → Res (List (List T) × BinIo B)
  | 0, x => .ok ([], x)
  | fuel + 1, x =>
    if x.more c then
      match x.readline c with
      | .error e => .error e
      | .ok (v, y) =>
        match BinIo.readLines c fuel y with
        | .error e => .error e
        | .ok (vs, z) => .ok (v :: vs, z)
    else .ok ([], x)

/-! ## The workers' blocks -/

/-- What a worker knows about its data.  `f = none` is the null pointer.
Models libman/thread.hpp:86-113. -/
structure Worker (T B : Type _) where
  startRid : Nat
  ncol : Nat
  dataSize : Nat
  f : Option (File B)
  localData : Option (List T)

/-- A worker of a coordinator that was given a file name, with the block that `get_rid_len_tup` gives to
thread `thd`, moved by `shift` rows (0 in a single process; `(nrow / nprocs) * mpi_rank` in a
distributed run).  Models libman/thread.hpp:118-146, libman/kmeans_thread.cpp:30-42,
libman/task_thread.cpp:52 and libdist/dist_coordinator.cpp:44-46. -/
def Worker.create (c : Codec T B) (bytes : List B) (nrow reqThreads ncol shift thd : Nat) : Worker T B :=
  let b := Partition.ridLen nrow (Partition.effThreads reqThreads nrow) thd
  ⟨u32 (b.1 + shift), ncol, u64 (u64 (c.size * b.2) * ncol), some ⟨bytes, 0⟩, none⟩

/-- `numa_alloc_mem`.  `fseek` takes a `long`.  Models libman/thread.cpp:111-127 and 97-108. -/
def Worker.numaAllocMem (c : Codec T B) (w : Worker T B) : Res (Worker T B) :=
  match w.f with
  | none => .error .assertFail
  | some f =>
    match fread { f with pos := u64 (u64 (w.startRid * w.ncol) * c.size) } w.dataSize with
    | (none, _) => .error .assertFail
    | (some bs, _) => .ok { w with f := none, localData := some (decodeAll c (w.dataSize / c.size) bs) }

/-- `set_local_data_ptr(data)`: the block of a worker whose data is in the caller's array.
Models libman/thread.cpp:129-134. -/
def Worker.setLocalDataPtr (w : Worker T B) (data : List T) : Worker T B :=
  { w with localData := some (data.drop (u64 (w.startRid * w.ncol))) }

/-- One pass of `numa_reorg`: the worker gets a copy of its block; undefined if the block is not inside the
array.  Models binding/numa_reorg.hpp:76-96 (`set_local_data_ptr` with `offset = false`). -/
def Worker.numaReorg (c : Codec T B) (data : List T) (ncol : Nat) (w : Worker T B) : Res (Worker T B) :=
  let offset := u64 (w.startRid * ncol)
  if offset + w.dataSize / c.size ≤ data.length then
    .ok { w with localData := some ((data.drop offset).take (w.dataSize / c.size)) }
  else .error .ub

/-- `memory_distributor::create(data, npart, nrow, ncol)->numa_reorg(threads)` with the workers of a coordinator.
The number of NUMA nodes `npart` is only used for an assertion.
Models binding/numa_reorg.hpp:53-96. -/
def numaReorgAll (c : Codec T B) (data : List T) (npart nrow reqThreads ncol : Nat) : Res (List (Worker T B)) :=
  if npart = 0 then .error .ub
  else if nrow ≠ u64 (nrow / npart * (npart - 1) + u32 (nrow / npart + nrow % npart)) then .error .assertFail
  else (List.range (Partition.effThreads reqThreads nrow)).mapM fun thd =>
    (Worker.create c [] nrow reqThreads ncol 0 thd).numaReorg c data ncol

/-- The `ncol` values from local row `i` on; undefined outside the buffer.
Models `&local_data[row*ncol]`, libman/kmeans_thread.cpp:86. -/
def Worker.localRow (w : Worker T B) (i : Nat) : Res (List T) :=
  match w.localData with
  | none => .error .ub
  | some d =>
    if u64 (i * w.ncol) + w.ncol ≤ d.length then .ok ((d.drop (u64 (i * w.ncol))).take w.ncol) else .error .ub

/-- All workers of a coordinator after the `ALLOC_DATA` phase.  Every worker has its own file handle and
buffer, so their order does not matter.  Models libman/kmeans_coordinator.cpp:171-173. -/
def loadAll (c : Codec T B) (bytes : List B) (nrow reqThreads ncol shift : Nat) : Res (List (Worker T B)) :=
  (List.range (Partition.effThreads reqThreads nrow)).mapM fun thd =>
    (Worker.create c bytes nrow reqThreads ncol shift thd).numaAllocMem c

/-- `get_thd_data`: the values of a row in the buffer of its worker.
Models libman/coordinator.cpp:93-101. -/
def thdData (ws : List (Worker T B)) (nrow reqThreads row : Nat) : Res (List T) :=
  let p := Partition.getThdData nrow reqThreads row
  match ws[p.1]? with
  | none => .error .ub
  | some w => w.localRow p.2

/-! ## `store_cluster` -/

/-- The loop of `store_cluster`, from row `i` on, with `left` rows to go; it ends with the assertion.
Models libkcommon/io.cpp:39-56. -/
def storeLoop (c : Codec T B) (data : Nat → List T) (assign : Nat → Nat) (id : Nat) :
    List Nat → Nat → File B → Res (File B)
  | [], left, f => if left = 0 then .ok f else .error .assertFail
  | i :: rows, left, f =>
    if left = 0 then .ok f
    else if assign i = id then
      match fwrite f ((data i).flatMap c.enc) with
      | (false, _) => .error .assertFail
      | (true, f') => storeLoop c data assign id rows (left - 1) f'
    else storeLoop c data assign id rows left f

/-- `store_cluster`, without the name of the file.  Models libkcommon/io.cpp:24-57. -/
def storeCluster (c : Codec T B) (data : Nat → List T) (assign : Nat → Nat) (nrow id numel : Nat) :
    Res (File B) :=
  storeLoop c data assign id (List.range nrow) numel ⟨[], 0⟩

/-! ## The readers -/

/-- An `ifstream` inside a reader; `fail` is its failbit.  Models libkcommon/io.hpp:125-172. -/
structure Reader (B : Type _) where
  f : File B
  fail : Bool
  nrow : Nat
  ncol : Nat

/-- `f.read(buf, nbytes)`: the bytes, if the stream is still good afterwards.  A stream with its failbit
set reads nothing.  Models the calls of libkcommon/io.hpp:233-240. -/
def Reader.streamRead (x : Reader B) (nbytes : Nat) : Option (List B) × Reader B :=
  if x.fail then (none, x)
  else if x.f.pos + nbytes ≤ x.f.bytes.length then
    (some ((x.f.bytes.drop x.f.pos).take nbytes), { x with f := { x.f with pos := x.f.pos + nbytes } })
  else (none, { x with fail := true, f := { x.f with pos := max x.f.pos x.f.bytes.length } })

/-- `bin_rm_reader`: construction.  Models libkcommon/io.hpp:223-225, 254-257. -/
def Reader.binOpen (bytes : List B) : Reader B := ⟨⟨bytes, 0⟩, false, 0, 0⟩

/-- `bin_rm_reader::seek`.  `seekg` clears the eofbit, but does nothing if the failbit is set.
Models libkcommon/io.hpp:227-229. -/
def Reader.seek (x : Reader B) (nbytes : Nat) : Reader B :=
  if x.fail then x else { x with f := { x.f with pos := nbytes } }

/-- `bin_rm_reader::read` into a vector of `len` elements; `none` says that the stream failed, which the
caller cannot see (what is in the vector then is not modelled).  Models libkcommon/io.hpp:231-235. -/
def Reader.binRead (c : Codec T B) (x : Reader B) (len : Nat) : Res (Option (List T) × Reader B) :=
  if len = 0 then .error .assertFail
  else
    match x.streamRead (len * c.size) with
    | (none, y) => .ok (none, y)
    | (some bs, y) => .ok (some (decodeAll c len bs), y)

/-- `bin_rm_reader::readline` into a vector of `len` elements; `none` is the return value `false`.
Models libkcommon/io.hpp:237-252. -/
def Reader.binReadline (c : Codec T B) (x : Reader B) (len : Nat) : Res (Option (List T) × Reader B) :=
  if x.ncol = 0 then .error .assertFail
  else
    match x.streamRead (len * c.size) with
    | (none, y) => .ok (none, y)
    | (some bs, y) => .ok (some (decodeAll c len bs), { y with nrow := y.nrow + 1 })

/-- `while (rdr.readline(v)) use(v);`, at most `fuel` times.  Models calls of libkcommon/io.hpp:237-252. -/
def Reader.binLines (c : Codec T B) (len : Nat) : Nat → Reader B → Res (List (List T) × Reader B)
  | 0, x => .ok ([], x)
  | fuel + 1, x =>
    match x.binReadline c len with
    | .error e => .error e
    | .ok (none, y) => .ok ([], y)
    | .ok (some v, y) =>
      match Reader.binLines c len fuel y with
      | .error e => .error e
      | .ok (vs, z) => .ok (v :: vs, z)

/-- A `text_reader`.  A line is represented by the numbers that `ss >> number` extracts from it before
it fails: all its numbers if it has nothing else.  Models libkcommon/io.hpp:174-218. -/
structure TextReader (T : Type _) where
  lines : List (List T)
  nrow : Nat

/-- `data[pos++] = number` for all numbers of a line, without a check of the size.
Models libkcommon/io.hpp:190-191, 210-211. -/
def putNums (data : List T) (pos : Nat) (nums : List T) : Res (List T) :=
  if pos + nums.length ≤ data.length then
    .ok (data.take pos ++ nums ++ data.drop (pos + nums.length))
  else if nums = [] then .ok data else .error .ub

/-- `text_reader::readline` into the vector `data`: what it returns, the vector, the reader.
Models libkcommon/io.hpp:202-218. -/
def TextReader.readline (x : TextReader T) (data : List T) : Res (Bool × List T × TextReader T) :=
  if data = [] then .error .assertFail
  else
    match x.lines with
    | [] => .ok (false, data, x)
    | l :: ls =>
      match putNums data 0 l with
      | .error e => .error e
      | .ok d => .ok (true, d, ⟨ls, x.nrow + 1⟩)

/-- The loop of `text_reader::read`.  Models libkcommon/io.hpp:184-194. -/
def textLoop : List (List T) → Nat → List T → Nat → Res (List T × Nat)
  | [], _, data, nrow => .ok (data, nrow)
  | l :: ls, pos, data, nrow =>
    match putNums data pos l with
    | .error e => .error e
    | .ok d => textLoop ls (pos + l.length) d (nrow + 1)

/-- `text_reader::read`.  Models libkcommon/io.hpp:181-195. -/
def TextReader.read (x : TextReader T) (data : List T) : Res (List T × TextReader T) :=
  if data = [] then .error .assertFail
  else
    match textLoop x.lines 0 data x.nrow with
    | .error e => .error e
    | .ok (d, nr) => .ok (d, ⟨[], nr⟩)

/-- `while (rdr.readline(v)) m.insert(m.end(), v.begin(), v.end());` with one vector `v`.
Models libkcommon/unit-test/test_reader.cpp:28-33, the documented use. -/
def TextReader.lineLoop : List (List T) → List T → Res (List (List T))
  | [], _ => .ok []
  | l :: ls, v =>
    match (TextReader.mk (l :: ls) 0).readline v with
    | .error e => .error e
    | .ok (false, _, _) => .ok []
    | .ok (true, v', _) =>
      match TextReader.lineLoop ls v' with
      | .error e => .error e
      | .ok vs => .ok (v' :: vs)

/-! ## `cluster_t::write` -/

/-- A `cluster_t`.  Models libkcommon/types.hpp:41-46. -/
structure ClusterT (R : Type _) where
  nrow : Nat
  ncol : Nat
  iters : Nat
  k : Nat
  assignments : List Nat
  counts : List Nat
  centroids : List R

/-- `f << n` for an unsigned integer.  Models libkcommon/types.cpp:125-128. -/
def showNat (n : Nat) : List Char := Nat.toDigits 10 n

/-- `f << v[0]; f << "," << v[1]; ...` for the first `m` elements; reading beyond the end is undefined.
Models libkcommon/types.cpp:133-138 and 143-148. -/
def showList {α : Type _} (shw : α → List Char) (v : List α) (m : Nat) : Res (List Char) :=
  if m ≤ v.length then .ok (List.intercalate [','] ((v.take m).map shw)) else .error .ub

/-- The part of the file after the sizes and assignments: the rows of the centroids.
Models libkcommon/types.cpp:152-167. -/
def showRows {R : Type _} (fmt : R → List Char) (cents : List R) (k ncol : Nat) : Res (List Char) :=
  if k * ncol ≤ cents.length then
    .ok (List.intercalate [','] ((List.range k).map fun row =>
      ['['] ++ List.intercalate [','] (((cents.drop (row * ncol)).take ncol).map fmt) ++ [']']))
  else .error .ub

/-- The contents of the file that `write` makes; `fmt` is the formatting of a `double`.
Models libkcommon/types.cpp:106-169. -/
def yaml {R : Type _} (fmt : R → List Char) (x : ClusterT R) : Res (List Char) :=
  match showList showNat x.counts x.k with
  | .error e => .error e
  | .ok sizes =>
    match showList showNat x.assignments x.nrow with
    | .error e => .error e
    | .ok clus =>
      match showRows fmt x.centroids x.k x.ncol with
      | .error e => .error e
      | .ok cents => .ok ("k: ".toList ++ showNat x.k ++ "\nniter: ".toList ++ showNat x.iters ++
          "\nnsamples: ".toList ++ showNat x.nrow ++ "\ndim: ".toList ++ showNat x.ncol ++
          "\nsize: [".toList ++ sizes ++ "]\ncluster: [".toList ++ clus ++
          "]\ncentroids: [".toList ++ cents ++ "]\n".toList)

/-- A number rounded to six significant digits, which is what `f << x` prints: the precision of a new
`ofstream` is 6 and the function does not change it.  (Ties are rounded up here.).
Models libkcommon/types.cpp:123 and 160-162. -/
def sig6 (x : ℚ) : ℚ :=
  if x = 0 then 0
  else
    let e := Int.log 10 |x| - 5
    (round (x / (10 : ℚ) ^ e) : ℚ) * (10 : ℚ) ^ e

/-! ## Comparisons -/

/-- `v_eq`, `std::equal(lhs.begin(), lhs.end(), rhs.begin())`: reads `rhs` as far as `lhs` goes, or
up to the first difference.  Models libkcommon/util.hpp:58-61. -/
def vEq {α : Type _} [DecidableEq α] : List α → List α → Res Bool
  | [], _ => .ok true
  | _ :: _, [] => .error .ub
  | x :: xs, y :: ys => if x = y then vEq xs ys else .ok false

/-- `eq_all` on two arrays of `len` elements.  Models libkcommon/util.hpp:71-74. -/
def eqAll {α : Type _} [DecidableEq α] (v1 v2 : List α) (len : Nat) : Res Bool :=
  if len = 0 then .error .ub else vEq (v1.take (len - 1)) v2

/-- `v_eq_const`.  Models libkcommon/util.hpp:63-69. -/
def vEqConst {α : Type _} [DecidableEq α] (v : List α) (x : α) : Bool := v.all fun y => y = x

/-- `cluster_t::operator==`.  Models libkcommon/types.cpp:171-176. -/
def ClusterT.eq {R : Type _} [DecidableEq R] (x y : ClusterT R) : Res Bool :=
  match vEq x.assignments y.assignments with
  | .error e => .error e
  | .ok false => .ok false
  | .ok true =>
    match vEq x.counts y.counts with
    | .error e => .error e
    | .ok false => .ok false
    | .ok true => vEq x.centroids y.centroids

end Knor.Io
