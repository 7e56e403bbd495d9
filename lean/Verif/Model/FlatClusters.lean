import Verif.Basic
import Verif.Model.Io

/-!
# The cluster container as it is stored

Model/Clusters.lean treats the means of a `clusters` object as a function of cluster and column.  Here they are what
they are in the program: one vector of `nclust * ncol` numbers, indexed with 32-bit arithmetic and without bounds
checks.  A pointer argument is the list of numbers it points to; reading or writing past the end of a vector is
undefined behaviour.  Also the overloads that take an iterator (any object with `has_next` and `next`, modelled by
the list of numbers it yields), copying, comparison, and the growing variant `sparse_clusters`.
-/

namespace Knor.Flat

variable {R : Type _}

/-- A `clusters` object.  Models libkcommon/clusters.hpp:42-49. -/
structure Obj (R : Type _) where
  ncol : Nat
  nclust : Nat
  num : List Int
  complete : List Bool
  means : List R
  deriving DecidableEq, Repr

/-- The constructor without means; the length of the vector of means is computed in 32 bits.
Models libkcommon/clusters.cpp:158-165 and libkcommon/clusters.hpp:60-62. -/
def create [Zero R] (nclust ncol : Nat) : Obj R :=
  { ncol := ncol, nclust := nclust, num := List.replicate nclust 0, complete := List.replicate nclust false
    means := List.replicate (u32 (ncol * nclust)) 0 }

/-- `v[i] = f(v[i])`.  Models the unchecked accesses of libkcommon/clusters.hpp:131, 141, 151, 160, 180-181 and 193. -/
def upd (f : R → Res R) (i : Nat) (v : List R) : Res (List R) :=
  match v[i]? with
  | none => .error .ub
  | some x =>
    match f x with
    | .error e => .error e
    | .ok y => .ok (v.set i y)

/-- A loop over the columns `i, …, i + cnt - 1` of the cluster whose means start at `off`, in 32-bit arithmetic.
Models the loops of libkcommon/clusters.hpp:130-132, 140-143, 149-152, 159-161 and libkcommon/clusters.cpp:61-63,
76-78, 195-198. -/
def cols (g : Nat → R → Res R) (off : Nat) : Nat → Nat → List R → Res (List R)
  | 0, _, v => .ok v
  | cnt + 1, i, v =>
    match upd (g i) (u32 (off + i)) v with
    | .error e => .error e
    | .ok v' => cols g off cnt (i + 1) v'

/-- `num_members_v[idx] = f(num_members_v[idx])`.
Models libkcommon/clusters.hpp:111-113, 133, 143, 153, 162 and 183-184. -/
def updNum (f : Int → Int) (c : Nat) (v : List Int) : Res (List Int) :=
  match v[c]? with
  | none => .error .ub
  | some x => .ok (v.set c (f x))

/-- The number a pointer or iterator argument has at column `i`.
Models libkcommon/clusters.hpp:131, 140, 150 and 160. -/
def arg (x : List R) (f : R → R → R) (i : Nat) (b : R) : Res R :=
  match x[i]? with
  | none => .error .ub
  | some a => .ok (f b a)

/-- Change the means and the count of one cluster.  Models what libkcommon/clusters.hpp:128-163 have in common. -/
def member (f : R → R → R) (d : Int) (cnt : Nat) (s : Obj R) (x : List R) (c : Nat) : Res (Obj R) :=
  match cols (arg x f) (u32 (c * s.ncol)) cnt 0 s.means with
  | .error e => .error e
  | .ok m =>
    match updNum (· + d) c s.num with
    | .error e => .error e
    | .ok v => .ok { s with means := m, num := v }

/-- `add_member(const double*, idx)`.  Models libkcommon/clusters.hpp:128-134. -/
def addMember [Add R] (s : Obj R) (x : List R) (c : Nat) : Res (Obj R) := member (· + ·) 1 s.ncol s x c

/-- `remove_member(const T*, idx)`.  Models libkcommon/clusters.hpp:156-163. -/
def removeMember [Sub R] (s : Obj R) (x : List R) (c : Nat) : Res (Obj R) := member (· - ·) (-1) s.ncol s x c

/-- `add_member(T&, idx)` with an iterator.  Models libkcommon/clusters.hpp:136-144. -/
def addIter [Add R] (s : Obj R) (x : List R) (c : Nat) : Res (Obj R) := member (· + ·) 1 x.length s x c

/-- `remove_member(T&, idx)` with an iterator.  Models libkcommon/clusters.hpp:146-154. -/
def removeIter [Sub R] (s : Obj R) (x : List R) (c : Nat) : Res (Obj R) := member (· - ·) (-1) x.length s x c

/-- `swap_membership(const T*, from, to)`.  Models libkcommon/clusters.hpp:165-170. -/
def swapMembership [Add R] [Sub R] (s : Obj R) (x : List R) (a b : Nat) : Res (Obj R) :=
  match removeMember s x a with
  | .error e => .error e
  | .ok s' => addMember s' x b

/-- The loop of the iterator version of `swap_membership`.  Models libkcommon/clusters.hpp:178-182. -/
def swapCols [Add R] [Sub R] (offA offB : Nat) : List R → Nat → List R → Res (List R)
  | [], _, v => .ok v
  | e :: es, i, v =>
    match upd (fun b => .ok (b - e)) (u32 (offA + i)) v with
    | .error er => .error er
    | .ok v1 =>
      match upd (fun b => .ok (b + e)) (u32 (offB + i)) v1 with
      | .error er => .error er
      | .ok v2 => swapCols offA offB es (i + 1) v2

/-- `swap_membership(T&, from, to)` with an iterator.  Models libkcommon/clusters.hpp:172-185. -/
def swapIter [Add R] [Sub R] (s : Obj R) (x : List R) (a b : Nat) : Res (Obj R) :=
  match swapCols (u32 (a * s.ncol)) (u32 (b * s.ncol)) x 0 s.means with
  | .error e => .error e
  | .ok m =>
    match updNum (· - 1) a s.num with
    | .error e => .error e
    | .ok v =>
      match updNum (· + 1) b v with
      | .error e => .error e
      | .ok v' => .ok { s with means := m, num := v' }

/-- The loop of the iterator version of `set_mean`: the position is never advanced.
Models libkcommon/clusters.hpp:191-194. -/
def setIterLoop (off : Nat) : List R → List R → Res (List R)
  | [], v => .ok v
  | e :: es, v =>
    match upd (fun _ => .ok e) off v with
    | .error er => .error er
    | .ok v' => setIterLoop off es v'

/-- `set_mean(T&, idx)` with an iterator.  Models libkcommon/clusters.hpp:187-195. -/
def setMeanIter (s : Obj R) (x : List R) (c : Nat) : Res (Obj R) :=
  match setIterLoop (u32 (c * s.ncol)) x s.means with
  | .error e => .error e
  | .ok m => .ok { s with means := m }

/-- `std::copy` of `x` to position `off`.  Models libkcommon/clusters.cpp:40-41, 49, 51 and 92. -/
def copyAt (x : List R) (off : Nat) (v : List R) : Res (List R) :=
  if off + x.length ≤ v.length then .ok (v.take off ++ x ++ v.drop (off + x.length)) else .error .ub

/-- `set_mean(const double*, idx)`: exactly `ncol` numbers are copied.  Models libkcommon/clusters.cpp:45-53. -/
def setMean (s : Obj R) (x : List R) (c : Nat) : Res (Obj R) :=
  if x.length < s.ncol then .error .ub
  else
    match copyAt (x.take s.ncol) (u32 (c * s.ncol)) s.means with
    | .error e => .error e
    | .ok m => .ok { s with means := m }

/-- `set_mean(const kmsvector&, idx)`: the whole vector is copied.  Models libkcommon/clusters.cpp:36-43. -/
def setMeanVec (s : Obj R) (x : List R) (c : Nat) : Res (Obj R) :=
  match copyAt x (u32 (c * s.ncol)) s.means with
  | .error e => .error e
  | .ok m => .ok { s with means := m }

/-- `set_mean(const double*)` for all clusters.  Models libkcommon/clusters.cpp:45-50. -/
def setMeans [Zero R] (s : Obj R) (x : List R) : Res (Obj R) :=
  let len := u32 (s.ncol * s.nclust)
  if x.length < len then .error .ub
  else
    let m := if s.means.length = len then s.means else s.means.take len ++ List.replicate (len - s.means.length) 0
    match copyAt (x.take len) 0 m with
    | .error e => .error e
    | .ok m => .ok { s with means := m }

/-- The constructor with means: no members, and every cluster counts as divided.
Models libkcommon/clusters.cpp:167-179 and libkcommon/clusters.hpp:64-72. -/
def createWith [Zero R] (nclust ncol : Nat) (x : List R) : Res (Obj R) :=
  match setMeans { ncol := ncol, nclust := nclust, num := [], complete := [], means := [] } x with
  | .error e => .error e
  | .ok s => .ok { s with num := List.replicate nclust 0, complete := List.replicate nclust true }

/-- `finalize(idx)`.  Models libkcommon/clusters.cpp:55-66. -/
def finalize [Div R] [IntCast R] (s : Obj R) (c : Nat) : Res (Obj R) :=
  match s.complete[c]?, s.num[c]? with
  | some done, some cnt =>
    if done then .ok s
    else
      match (if cnt > 1 then cols (fun _ b => .ok (b / (cnt : R))) (u32 (c * s.ncol)) s.ncol 0 s.means
          else .ok s.means) with
      | .error e => .error e
      | .ok m => .ok { s with means := m, complete := s.complete.set c true }
  | _, _ => .error .ub

/-- `unfinalize(idx)`.  Models libkcommon/clusters.cpp:68-79. -/
def unfinalize [Mul R] [IntCast R] (s : Obj R) (c : Nat) : Res (Obj R) :=
  match s.complete[c]?, s.num[c]? with
  | some done, some cnt =>
    if ¬ done then .ok s
    else
      match (if cnt < 2 then .ok s.means
          else cols (fun _ b => .ok (b * (cnt : R))) (u32 (s.ncol * c)) s.ncol 0 s.means) with
      | .error e => .error e
      | .ok m => .ok { s with means := m, complete := s.complete.set c false }
  | _, _ => .error .ub

/-- Call `f` for the clusters `c, …, c + cnt - 1`.
Models the loops of libkcommon/clusters.cpp:82-83 and 87-88 and libkcommon/clusters.hpp:103-104. -/
def forClusters (f : Obj R → Nat → Res (Obj R)) : Nat → Nat → Obj R → Res (Obj R)
  | 0, _, s => .ok s
  | cnt + 1, c, s =>
    match f s c with
    | .error e => .error e
    | .ok s' => forClusters f cnt (c + 1) s'

/-- `finalize_all`.  Models libkcommon/clusters.cpp:81-84. -/
def finalizeAll [Div R] [IntCast R] (s : Obj R) : Res (Obj R) := forClusters finalize s.nclust 0 s

/-- `unfinalize_all`.  Models libkcommon/clusters.cpp:86-89. -/
def unfinalizeAll [Mul R] [IntCast R] (s : Obj R) : Res (Obj R) := forClusters unfinalize s.nclust 0 s

/-- `v[i] += w[i]` for `i = 0, …, cnt - 1`; indices below `2^32`.
Models the loops of libkcommon/clusters.cpp:112-116, 122-126, 130-131, 135-136 and 264-265. -/
def addAll {α : Type _} (add : α → α → α) (cnt : Nat) (v w : List α) : Res (List α) :=
  if v.length < cnt ∨ w.length < cnt then .error .ub
  else .ok ((List.zipWith add (v.take cnt) w) ++ v.drop cnt)

/-- `operator+=`; the loops run over the lengths of the left operand.  Models libkcommon/clusters.cpp:111-118. -/
def plusEq [Add R] (s rhs : Obj R) : Res (Obj R) :=
  match addAll (· + ·) (u32 s.means.length) s.means rhs.means with
  | .error e => .error e
  | .ok m =>
    match addAll (· + ·) s.nclust s.num rhs.num with
    | .error e => .error e
    | .ok v => .ok { s with means := m, num := v }

/-- `peq`.  Models libkcommon/clusters.cpp:120-127. -/
def peq [Add R] (s rhs : Obj R) : Res (Obj R) :=
  if u32 rhs.means.length ≠ u32 s.means.length then .error .assertFail else plusEq s rhs

/-- `means_peq`.  Models libkcommon/clusters.cpp:129-132. -/
def meansPeq [Add R] (s : Obj R) (x : List R) : Res (Obj R) :=
  match addAll (· + ·) (u32 s.means.length) s.means x with
  | .error e => .error e
  | .ok m => .ok { s with means := m }

/-- `num_members_v_peq`.  Models libkcommon/clusters.cpp:134-137. -/
def numPeq (s : Obj R) (x : List Int) : Res (Obj R) :=
  match addAll (· + ·) (u32 s.num.length) s.num x with
  | .error e => .error e
  | .ok v => .ok { s with num := v }

/-- `set_num_members_v`.  Models libkcommon/clusters.cpp:91-93. -/
def setNum (s : Obj R) (x : List Int) : Res (Obj R) :=
  if x.length < s.nclust then .error .ub
  else
    match copyAt (x.take s.nclust) 0 s.num with
    | .error e => .error e
    | .ok v => .ok { s with num := v }

/-- `set_complete(idx, complete)`.  Models libkcommon/clusters.hpp:97-100. -/
def setComplete (s : Obj R) (c : Nat) (b : Bool) : Res (Obj R) :=
  if c < s.complete.length then .ok { s with complete := s.complete.set c b } else .error .ub

/-- `set_complete_all(complete)`.  Models libkcommon/clusters.hpp:102-105. -/
def setCompleteAll (s : Obj R) (b : Bool) : Res (Obj R) :=
  forClusters (fun s c => setComplete s c b) s.nclust 0 s

/-- `scale_centroid`.  Models libkcommon/clusters.cpp:192-199. -/
def scaleCentroid [One R] [Sub R] [Add R] [Mul R] (s : Obj R) (factor : R) (c : Nat) (x : List R) : Res (Obj R) :=
  if s.nclust ≤ c then .error .assertFail
  else
    match cols (arg x fun b a => (1 - factor) * b + factor * a) (u32 (s.ncol * c)) s.ncol 0 s.means with
    | .error e => .error e
    | .ok m => .ok { s with means := m }

/-- `clear`.  Models libkcommon/clusters.cpp:28-32. -/
def clear [Zero R] (s : Obj R) : Obj R :=
  { s with means := s.means.map fun _ => 0, num := s.num.map fun _ => 0, complete := s.complete.map fun _ => false }

/-- `operator=`: the completion flags are not copied.  Models libkcommon/clusters.cpp:95-101. -/
def assign (s other : Obj R) : Obj R :=
  { s with means := other.means, num := other.num, ncol := other.ncol, nclust := other.nclust }

/-- `operator==`.  Models libkcommon/clusters.cpp:103-109. -/
def eq [DecidableEq R] (s other : Obj R) : Res Bool :=
  if s.ncol ≠ other.ncol ∨ s.nclust ≠ other.nclust then .ok false
  else
    match Io.vEq s.num other.num with
    | .error e => .error e
    | .ok false => .ok false
    | .ok true => Io.vEq s.means other.means

/-- Column `j` of the mean of cluster `c`, read through `get_mean_rawptr` (64-bit arithmetic).
Models libkcommon/clusters.hpp:81-83. -/
def getMean (s : Obj R) (c j : Nat) : Res R :=
  match s.means[c * s.ncol + j]? with
  | none => .error .ub
  | some x => .ok x

/-- `get_num_members`.  Models libkcommon/clusters.hpp:85-87. -/
def getNum (s : Obj R) (c : Nat) : Res Int :=
  match s.num[c]? with
  | none => .error .ub
  | some x => .ok x

/-- `is_complete`.  Models libkcommon/clusters.hpp:93-95. -/
def isComplete (s : Obj R) (c : Nat) : Res Bool :=
  match s.complete[c]? with
  | none => .error .ub
  | some x => .ok x

/-! ## The growing variant -/

/-- `sparse_clusters::resize`: room for cluster `idx`.  Models libkcommon/clusters.cpp:224-246. -/
def resize [Zero R] (s : Obj R) (idx : Nat) : Res (Obj R) :=
  if s.nclust ≠ s.num.length ∨ s.num.length ≠ s.complete.length ∨ s.means.length ≠ u32 (s.nclust * s.ncol) then
    .error .assertFail
  else
    .ok { s with
      num := s.num ++ List.replicate (idx + 1 - s.nclust) 0
      complete := s.complete ++ List.replicate (idx + 1 - s.nclust) false
      means := s.means ++ List.replicate ((idx + 1) * s.ncol - s.means.length) 0
      nclust := u32 (idx + 1) }

/-- `sparse_clusters::add_member`.  Models libkcommon/clusters.hpp:420-425. -/
def addSparse [Zero R] [Add R] (s : Obj R) (x : List R) (c : Nat) : Res (Obj R) :=
  if s.nclust ≤ c then
    match resize s c with
    | .error e => .error e
    | .ok s' => addMember s' x c
  else addMember s x c

/-- `sparse_clusters::num_members_peq`.  Models libkcommon/clusters.hpp:394-398. -/
def numSparse (s : Obj R) (d : Int) (c : Nat) : Res (Obj R) :=
  if s.nclust ≤ c then .error .throws
  else
    match updNum (· + d) c s.num with
    | .error e => .error e
    | .ok v => .ok { s with num := v }

/-- The counts of `rhs` added one by one.  Models libkcommon/clusters.cpp:267-268. -/
def numsSparse (rhs : List Int) : Nat → Nat → Obj R → Res (Obj R)
  | 0, _, s => .ok s
  | cnt + 1, c, s =>
    match rhs[c]? with
    | none => .error .ub
    | some d =>
      match numSparse s d c with
      | .error e => .error e
      | .ok s' => numsSparse rhs cnt (c + 1) s'

/-- `sparse_clusters::peq`: room is made for as many *clusters* as the other operand has *numbers*.
Models libkcommon/clusters.cpp:260-269. -/
def peqSparse [Zero R] [Add R] (s rhs : Obj R) : Res (Obj R) :=
  match (if s.means.length < rhs.means.length then resize s rhs.means.length else .ok s) with
  | .error e => .error e
  | .ok s1 =>
    match addAll (· + ·) rhs.means.length s1.means rhs.means with
    | .error e => .error e
    | .ok m => numsSparse rhs.num rhs.nclust 0 { s1 with means := m }

/-- `sparse_clusters::set_complete`.  Models libkcommon/clusters.hpp:406-410. -/
def setCompleteSparse [Zero R] (s : Obj R) (c : Nat) (b : Bool) : Res (Obj R) :=
  if s.nclust ≤ c then
    match resize s c with
    | .error e => .error e
    | .ok s' => setComplete s' c b
  else setComplete s c b

/-- `sparse_clusters::get_mean_rawptr`.  Models libkcommon/clusters.hpp:412-417. -/
def getMeanSparse (s : Obj R) (c j : Nat) : Res R := if s.nclust ≤ c then .error .throws else getMean s c j

/-- `sparse_clusters::is_complete`.  Models libkcommon/clusters.hpp:400-404. -/
def isCompleteSparse (s : Obj R) (c : Nat) : Res Bool := if s.nclust ≤ c then .error .throws else isComplete s c

end Knor.Flat
