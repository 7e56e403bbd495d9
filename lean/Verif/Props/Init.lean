import Mathlib.Algebra.Order.Field.Rat
import Verif.Lemmas.Init
import Verif.Spec.Lloyd

/-!
# Properties C27–C31 and C53: initialisation and random generators

`draw : S → α × S` is any generator: from a state it produces a value and the next state.
`outputs draw m seed` are its first `m` values.
-/

namespace Knor.Init

open Knor Knor.Par Knor.Partition Knor.Spec

variable {R D S α : Type _} {k n : Nat}

/-! ### C27: Forgy -/

/-- **C27.**  For every generator of row numbers, Forgy initialisation returns normally and centroid
`c` is the data row with the `c`-th number drawn. -/
theorem C27_forgy_picks_rows (draw : S → Nat × S) (seed : S) (data : Nat → Row R n) (N nt : Nat)
    (hnt : 0 < nt) (hlt : N < 4294967296) (hd : ∀ s, (draw s).1 < N) (c0 : Clusters R k n) :
    ∃ c', forgy draw seed data N nt c0 = .ok c' ∧
      ∀ c : Fin k, ∃ r, r < N ∧ (outputs draw k seed)[c.val]? = some r ∧ c'.means c = data r := by
  obtain ⟨c', e, h1, _⟩ := forgyLoop_spec (k := k) (data := data) draw hnt hlt hd
    (List.finRange k) (List.nodup_finRange k) seed c0
  refine ⟨c', e, fun c => ⟨_, hd _, outputs_get draw k seed c.val c.isLt, h1 c.val c ?_⟩⟩
  rw [List.getElem?_eq_getElem (by simp)]
  simp

/-- **C27, distributed.**  All ranks draw the same numbers from the same seed, each sets the
centroids whose row it owns, and after the reduction *every* rank holds exactly the centroids the
single-process version would choose. -/
theorem C27_distributed_forgy [AddCommMonoid R] (draw : S → Nat × S) (seed : S)
    (data : Nat → Row R n) (g np nt : Nat) (hnp : 0 < np) (hnt : 0 < nt) (hlt : g < 4294967296)
    (hd : ∀ s, (draw s).1 < g) (cs : Nat → Clusters R k n)
    (h0 : ∀ p, p < np → ∀ c j, (cs p).means c j = 0) :
    ∃ cs', forgyDist draw seed data g np nt cs = .ok cs' ∧
      ∀ p, p < np → ∀ c : Fin k, ∃ r, r < g ∧ (outputs draw k seed)[c.val]? = some r ∧
        (cs' p).means c = data r := by
  obtain ⟨m, e, hm⟩ := Distr.eachRank_ok
    (f := fun p => forgyLoopDist draw data g np p nt (List.finRange k) seed (cs p)) (np := np)
    (d := cs) (by
      intro p hp
      obtain ⟨c', e, _⟩ := forgyLoopDist_spec (data := data) draw hp hnt hlt hd (List.finRange k)
        (List.nodup_finRange k) seed (cs p)
      exact ⟨c', e⟩)
  have hmean : ∀ p, p < np → ∀ c : Fin k, (m p).means c =
      if isLocal g np p (draw (skip draw c.val seed)).1 then data (draw (skip draw c.val seed)).1
      else (cs p).means c := by
    intro p hp c
    obtain ⟨c', e', h1, _⟩ := forgyLoopDist_spec (data := data) draw hp hnt hlt hd (List.finRange k)
      (List.nodup_finRange k) seed (cs p)
    have := hm p hp
    rw [e', Except.ok.injEq] at this
    rw [← this]
    refine h1 c.val c ?_
    rw [List.getElem?_eq_getElem (by simp)]
    simp
  refine ⟨_, by unfold forgyDist; rw [e], ?_⟩
  intro p _ c
  refine ⟨_, hd _, outputs_get draw k seed c.val c.isLt, ?_⟩
  obtain ⟨q, l, hq, _, _, hloc, _, hother⟩ := owner_spec (g := g) hnp
    (hd (skip draw c.val seed)) (by omega)
  funext j
  show Distr.allreduce np (fun q => (m q).means c j) = _
  rw [allreduce_single hq]
  · rw [hmean q hq c, if_pos hloc]
  · intro q' hq' hne
    rw [hmean q' hq' c, if_neg (by rw [hother q' hq' hne]; simp), h0 q' hq']

/-- A generator for the witnesses: a counter modulo `m`. -/
def lcg (m : Nat) (s : Nat) : Nat × Nat := ((5 * s + 3) % m, s + 1)
/-- Rows of the witnesses. -/
def rows5 (r : Nat) : Row ℚ 1 := fun _ => ([0, 1, 10, 12, 11].getD r 0 : ℚ)

example : (∀ s, (lcg 5 s).1 < 5) ∧ outputs (lcg 7) 4 0 = [3, 1, 6, 4] :=
  ⟨fun _ => Nat.mod_lt _ (by decide), by decide⟩

/-- Forgy on three rows and with seven threads, of which five are used. -/
example : (match forgy (k := 3) (fun s : Nat => ((s * 3) % 5, s + 1)) 1 rows5 5 7 Clusters.empty with
    | .error _ => []
    | .ok c => (List.finRange 3).map fun i => c.means i 0) = [12, 1, 11] := by decide +kernel

/-- The same drawn by two ranks: both end with the same centroids. -/
example : (match forgyDist (k := 3) (fun s : Nat => ((s * 3) % 5, s + 1)) 1 rows5 5 2 7
      (fun _ => Clusters.empty) with
    | .error _ => []
    | .ok c => (List.range 2).map fun p => (List.finRange 3).map fun i => (c p).means i 0)
      = [[12, 1, 11], [12, 1, 11]] := by decide +kernel

/-! ### C28: random partition -/

/-- **C28.**  Random initialisation returns normally; every row gets a cluster, row `r` that of the
`r`-th number drawn; the sizes are the histogram and the centroids the means of the groups. -/
theorem C28_random_partition [Field R] (draw : S → Fin k × S) (seed : S) (data : Nat → Row R n)
    (N nt : Nat) (hnt : 0 < nt) (hlt : N < 4294967296) (a0 : Nat → Option (Fin k)) :
    ∃ c' a', random draw seed data N nt Clusters.empty a0 = .ok (c', a') ∧
      (∀ r, r < N → ∃ c, a' r = some c ∧ (outputs draw N seed)[r]? = some c) ∧
      (∀ c, c'.num c = (Spec.count N a' c : Int)) ∧
      (∀ c j, c'.means c j = memberMean N data a' c j) := by
  obtain ⟨c', a', e, h1, _, h3, h4, h5⟩ := randomLoop_spec (data := data) draw hnt hlt N 0 seed
    Clusters.empty a0 (by omega)
  have ha : ∀ r, r < N → a' r = some (draw (skip draw r seed)).1 := by
    intro r hr; have := h1 r hr; rwa [Nat.zero_add] at this
  have hnum : ∀ c, c'.num c = (Spec.count N a' c : Int) := by
    intro c
    rw [h5, count_eq]
    refine (zero_add _).trans (Finset.sum_congr rfl fun r hr => ?_)
    rw [ha r (Finset.mem_range.1 hr)]
    simp only [Option.some.injEq]
  have hsum : ∀ c j, c'.means c j = memberSum N data a' c j := by
    intro c j
    rw [h4, memberSum_eq]
    refine (zero_add _).trans (Finset.sum_congr rfl fun r hr => ?_)
    rw [ha r (Finset.mem_range.1 hr), Nat.zero_add]
    simp only [Option.some.injEq]
  refine ⟨c'.finalizeAll, a', ?_, ?_, ?_, ?_⟩
  · unfold random
    rw [List.range_eq_range', e]
  · intro r hr
    exact ⟨_, ha r hr, outputs_get draw N seed r hr⟩
  · intro c; rw [Clusters.finalizeAll_num]; exact hnum c
  · intro c j
    rw [Clusters.finalizeAll_means, Kmeans.finMean_of_counts (N := N) (data := data) (a := a')
      (by rw [h3]; rfl) (hsum c) (hnum c)]

/-- **C28 and C31, distributed.**  With every rank skipping the numbers of the rows before its own,
the ranks together assign row `i` of the whole data set the `i`-th number of the stream, exactly as a
single process would; and after the reduction every rank holds the group sizes and means of the
whole data set. -/
theorem C28_C31_distributed_random_partition [Field R] (draw : S → Fin k × S) (seed : S)
    (data : Nat → Row R n) (g np nt : Nat) (hnp : 0 < np) (hnt : 0 < nt)
    (hlt : g < 4294967296) (st : Nat → Clusters R k n × (Nat → Option (Fin k)))
    (h0 : ∀ p, p < np → (st p).1 = Clusters.empty) :
    ∃ st' A, randomDist draw seed data g np nt st = .ok st' ∧
      (∀ i, i < g → ∃ c, A i = some c ∧ (outputs draw g seed)[i]? = some c) ∧
      ∀ p, p < np →
        (∀ r, r < procNrow g np p → (st' p).2 r = A (p * (g / np) + r)) ∧
        (∀ c, (st' p).1.num c = (Spec.count g A c : Int)) ∧
        (∀ c j, (st' p).1.means c j = memberMean g data A c j) := by
  let A : Nat → Option (Fin k) := fun i => some (draw (skip draw i seed)).1
  have hspec : ∀ p, p < np → ∃ c' a', randomLoop (emuNext draw) (Distr.procData data g np p)
      (procNrow g np p) nt (List.range (procNrow g np p)) (emuCreate draw seed (g / np * p))
      (st p).1 (st p).2 = .ok (c', a') ∧ c'.complete = (fun _ => false) ∧
      (∀ r, r < procNrow g np p → a' r = A (Distr.off g np p + r)) ∧
      (∀ c j, c'.means c j = ∑ r ∈ Finset.range (procNrow g np p),
        if A (Distr.off g np p + r) = some c then data (Distr.off g np p + r) j else 0) ∧
      (∀ c, c'.num c = ∑ r ∈ Finset.range (procNrow g np p),
        if A (Distr.off g np p + r) = some c then (1 : Int) else 0) := by
    intro p hp
    have hle := Distr.procNrow_le (g := g) hp
    obtain ⟨c', a', e, h1, _, h3, h4, h5⟩ := randomLoop_spec
      (data := Distr.procData data g np p) (emuNext draw) hnt
      (by omega : procNrow g np p < 4294967296) (procNrow g np p) 0
      (emuCreate draw seed (g / np * p)) (st p).1 (st p).2 (by omega)
    have hA : ∀ i, A (Distr.off g np p + i) =
        some (emuNext draw (skip (emuNext draw) i (emuCreate draw seed (g / np * p)))).1 := by
      intro i
      show some (draw (skip draw (Distr.off g np p + i) seed)).1 =
        some (draw (skip draw i (skip draw (g / np * p) seed))).1
      rw [skip_add, Distr.off, Nat.mul_comm p]
    refine ⟨c', a', by rw [List.range_eq_range']; exact e, by rw [h3, h0 p hp]; rfl, ?_, ?_, ?_⟩
    · intro r hr
      have := h1 r hr
      rw [Nat.zero_add] at this
      rw [this, hA r]
    · intro c j
      rw [h4, h0 p hp]
      refine (zero_add _).trans (Finset.sum_congr rfl fun i _ => ?_)
      rw [hA i, Nat.zero_add]
      simp only [Option.some.injEq]
      rfl
    · intro c
      rw [h5, h0 p hp]
      refine (zero_add _).trans (Finset.sum_congr rfl fun i _ => ?_)
      rw [hA i]
      simp only [Option.some.injEq]
  obtain ⟨m, e, hm⟩ := Distr.eachRank_ok
    (f := fun p => randomLoop (emuNext draw) (Distr.procData data g np p)
      (procNrow g np p) nt (List.range (procNrow g np p)) (emuCreate draw seed (g / np * p))
      (st p).1 (st p).2) (np := np) (d := st) (fun p hp => by
        obtain ⟨c', a', e, _⟩ := hspec p hp; exact ⟨_, e⟩)
  have hloc : ∀ p, p < np → (m p).1.complete = (fun _ => false) ∧
      (∀ r, r < procNrow g np p → (m p).2 r = A (Distr.off g np p + r)) ∧
      (∀ c j, (m p).1.means c j = ∑ r ∈ Finset.range (procNrow g np p),
        if A (Distr.off g np p + r) = some c then data (Distr.off g np p + r) j else 0) ∧
      (∀ c, (m p).1.num c = ∑ r ∈ Finset.range (procNrow g np p),
        if A (Distr.off g np p + r) = some c then (1 : Int) else 0) := by
    intro p hp
    obtain ⟨c', a', e', h⟩ := hspec p hp
    have := hm p hp
    rw [e', Except.ok.injEq] at this
    rw [← this]
    exact h
  have hnum : ∀ c, Distr.allreduce np (fun q => (m q).1.num c) = (Spec.count g A c : Int) := by
    intro c
    rw [Distr.allreduce_eq, count_eq,
      ← Distr.sum_procs hnp fun i => if A i = some c then (1 : Int) else 0]
    exact Finset.sum_congr rfl fun p hp => (hloc p (Finset.mem_range.1 hp)).2.2.2 c
  have hsum : ∀ c j, Distr.allreduce np (fun q => (m q).1.means c j) = memberSum g data A c j := by
    intro c j
    rw [Distr.allreduce_eq, memberSum_eq,
      ← Distr.sum_procs hnp fun i => if A i = some c then data i j else 0]
    exact Finset.sum_congr rfl fun p hp => (hloc p (Finset.mem_range.1 hp)).2.2.1 c j
  refine ⟨_, A, by unfold randomDist; rw [e], ?_, ?_⟩
  · intro i hi
    exact ⟨_, rfl, outputs_get draw g seed i hi⟩
  · intro p hp
    refine ⟨(hloc p hp).2.1, ?_, ?_⟩
    · intro c
      simp only
      rw [Clusters.finalizeAll_num]
      exact hnum c
    · intro c j
      simp only
      rw [Clusters.finalizeAll_means, Kmeans.finMean_of_counts (N := g) (data := data) (a := A)
        ?_ (fun j => hsum c j) (hnum c)]
      show (m p).1.complete c = false
      rw [(hloc p hp).1]

/-- What the witnesses below show. -/
structure SeenRandom where
  assign : List (Option (Fin 2))
  num : List Int
  means : List ℚ
  deriving DecidableEq, Repr

/-- The generator of the witnesses. -/
def bits (s : Nat) : Fin 2 × Nat := (if s % 3 = 0 then 1 else 0, s + 1)

example : (match random bits 0 rows5 5 2 Clusters.empty (fun _ => none) with
    | .error e => .error e
    | .ok (c, a) => .ok ⟨(List.range 5).map a, (List.finRange 2).map c.num,
        (List.finRange 2).map fun i => c.means i 0⟩ : Res SeenRandom)
    = .ok ⟨[some 1, some 0, some 0, some 1, some 0], [3, 2], [22/3, 6]⟩ := by decide +kernel

/-- Two ranks with 2 and 3 rows together draw the same. -/
example : (match randomDist bits 0 rows5 5 2 2 (fun _ => (Clusters.empty, fun _ => none)) with
    | .error e => .error e
    | .ok s => .ok ((List.range 2).map fun p => ⟨(List.range (procNrow 5 2 p)).map (s p).2,
        (List.finRange 2).map (s p).1.num, (List.finRange 2).map fun i => (s p).1.means i 0⟩)
        : Res (List SeenRandom))
    = .ok [⟨[some 1, some 0], [3, 2], [22/3, 6]⟩, ⟨[some 0, some 1, some 0], [3, 2], [22/3, 6]⟩] := by
  decide +kernel

/-! ### C31: the generators -/

/-- **C31.**  Concatenating in rank order what the ranks draw (rank `p` as many numbers as it has
rows) gives the numbers a single process draws for all rows. -/
theorem C31_rank_streams_concatenate (draw : S → α × S) (seed : S) (g np : Nat) (hnp : 0 < np) :
    (List.range np).flatMap (fun p =>
      outputs (emuNext draw) (procNrow g np p) (emuCreate draw seed (g / np * p)))
      = outputs draw g seed := by
  have hmap : ∀ (m : Nat) (o : Nat), outputs (emuNext draw) m (emuCreate draw seed o)
      = (List.range' o m).map fun i => (draw (skip draw i seed)).1 := by
    intro m o
    apply List.ext_getElem?
    intro i
    by_cases hi : i < m
    · rw [outputs_get _ _ _ _ hi, List.getElem?_map, List.getElem?_range' hi]
      show some (draw (skip draw i (skip draw o seed))).1 = _
      rw [skip_add]
      simp
    · rw [List.getElem?_eq_none (by rw [outputs_length]; omega),
        List.getElem?_eq_none (by simp; omega)]
  have h2 : outputs draw g seed = (List.range' 0 g).map fun i => (draw (skip draw i seed)).1 :=
    hmap g 0
  rw [h2, ← List.range_eq_range']
  have hb := proc_blocks g np hnp
  unfold Spec.rowsOf at hb
  rw [List.flatMap_map] at hb
  rw [List.range_eq_range' (n := g), ← hb, List.map_flatMap]
  apply List.flatMap_congr
  intro p _
  rw [hmap]
  simp only [Nat.mul_comm]

/-- **C31.**  The interleaving generator: the `i`-th number of rank `p` of `np` is number
`p + i*np` of the serial stream, so dealing the ranks' numbers out in turn gives the serial
stream. -/
theorem C31_interleaved_streams (draw : S → α × S) (seed : S) (np p m : Nat) (hp : p < np)
    (i : Nat) (hi : i < m) :
    (outputs (mpiNext draw np) m (mpiCreate draw seed p))[i]?
      = (outputs draw (m * np) seed)[p + i * np]? := by
  rw [outputs_get _ _ _ _ hi, outputs_get draw _ _ _ (by
    have : (i + 1) * np ≤ m * np := Nat.mul_le_mul_right _ hi
    rw [Nat.succ_mul] at this; omega), skip_mpiNext draw (by omega)]
  unfold mpiCreate
  rw [skip_add]
  rfl

/-- Every number of the serial stream is drawn by exactly one rank. -/
theorem C31_interleaved_streams_cover (draw : S → α × S) (seed : S) (np m j : Nat) (hnp : 0 < np)
    (hj : j < m * np) :
    (outputs draw (m * np) seed)[j]?
      = (outputs (mpiNext draw np) m (mpiCreate draw seed (j % np)))[j / np]? := by
  rw [C31_interleaved_streams draw seed np (j % np) m (Nat.mod_lt _ hnp) (j / np)
    ((Nat.div_lt_iff_lt_mul hnp).2 hj)]
  congr 1
  have := Nat.div_add_mod j np
  rw [Nat.mul_comm] at this
  omega

/-- Three ranks, eight rows. -/
example : outputs (lcg 101) 8 0 = [3, 8, 13, 18, 23, 28, 33, 38] ∧
    outputs (emuNext (lcg 101)) (procNrow 8 3 0) (emuCreate (lcg 101) 0 (8 / 3 * 0)) = [3, 8] ∧
    outputs (emuNext (lcg 101)) (procNrow 8 3 1) (emuCreate (lcg 101) 0 (8 / 3 * 1)) = [13, 18] ∧
    outputs (emuNext (lcg 101)) (procNrow 8 3 2) (emuCreate (lcg 101) 0 (8 / 3 * 2))
      = [23, 28, 33, 38] ∧
    outputs (mpiNext (lcg 101) 3) 2 (mpiCreate (lcg 101) 0 1) = [8, 23] := by decide

/-! ### C29: k-means++ -/

/-- What k-means++ leaves behind: every centre is a data row, every row's stored distance is the
minimum of its distances to the centres, and its cluster is a centre at that distance. -/
structure KppOk [LE D] (dist : Row R n → Row R n → D) (data : Nat → Row R n) (N : Nat)
    (s : Kpp R D k n) : Prop where
  centresAreRows : ∀ c, ∃ r, r < N ∧ s.cltrs.means c = data r
  nearest : ∀ r, r < N → ∃ c, (s.slots r).assign = some c ∧
    (s.slots r).dist = dist (data r) (s.cltrs.means c) ∧
    IsNearest (fun c => dist (data r) (s.cltrs.means c)) c

/-- **C29.**  For every data set, first row and draws in `[0,1]`, and however the rows are divided
among the workers and interleaved, k-means++ returns normally (its assertion never fires), chooses
the first row as centre 0, only data rows as centres, and leaves with every row its distance to the
nearest centre and the name of such a centre. -/
theorem C29_kmeanspp [Field D] [LinearOrder D] [IsStrictOrderedRing D]
    (dist : Row R n → Row R n → D) (big : D) (data : Nat → Row R n) (N nt T : Nat) (todo : Nat → List Nat)
    (hpos : ∀ q r, q < N → r < N → 0 ≤ dist (data q) (data r))
    (hself : ∀ r, r < N → dist (data r) (data r) = 0)
    (hsp : Split N T todo) (hk : 0 < k) (hn : 0 < N) (hnt : 0 < nt) (hlt : N < 4294967296)
    (sched : Nat → List Nat) (hc : ∀ i, Complete T todo (sched i))
    (first : Nat) (hf : first < N) (u : Nat → D) (hu : ∀ i, 0 ≤ u i ∧ u i ≤ 1)
    (hbig : ∀ r, r < N → dist (data r) (data first) < big)
    (s : Kpp R D k n) (hs : ∀ r, r < N → (s.slots r).dist = big) :
    ∃ s', kpp dist data N nt T todo sched first u s = .ok s' ∧ KppOk dist data N s' ∧
      s'.cltrs.means ⟨0, hk⟩ = data first := by
  obtain ⟨k, rfl⟩ : ∃ m, k = m + 1 := ⟨k - 1, by omega⟩
  have hfr : List.finRange (k + 1) = 0 :: (List.finRange k).map Fin.succ := List.finRange_succ
  have hnd := List.nodup_finRange (k + 1)
  rw [hfr, List.nodup_cons] at hnd
  have hpre := first_pre (dist := dist) (data := data) (N := N) (s := s) (c0 := (0 : Fin (k + 1)))
    (rest := (List.finRange k).map Fin.succ) (fun c => by
      have := List.mem_finRange c
      rw [hfr, List.mem_cons] at this
      exact this) hnd.1 hself hf hbig hs
  obtain ⟨s', e, hp, hold, _⟩ := kppLoop_spec (u := u) hpos hself hn hnt hlt hsp hc hu _ _ _
    hnd.2 hnd.1 hpre
  refine ⟨s', ?_, ⟨fun c => hp.rows c (by simp), ?_⟩, ?_⟩
  · unfold kpp
    rw [hfr]
    simp only
    rw [thdRow_ok hnt hf hlt]
    exact e
  · intro r hr
    obtain ⟨c, _, h1, h2⟩ := hp.val r hr
    refine ⟨c, h1, h2, fun c' => ?_⟩
    simp only
    rw [← h2]
    exact hp.le r hr c' (by simp)
  · have := hold 0 hnd.1
    rw [show (⟨0, hk⟩ : Fin (k + 1)) = 0 from rfl, this]
    show Function.update s.cltrs.means 0 (data first) 0 = _
    rw [Function.update_self]

/-- **C29, the choice.**  Under the same hypotheses centre 0 is the first row, and centre `c > 0` is the row
that draw number `c - 1` selects when every row is weighted with its distance to the nearest of the
centres before `c`. -/
theorem C29_weighted_choice [Field D] [LinearOrder D] [IsStrictOrderedRing D]
    (dist : Row R n → Row R n → D)
    (big : D) (data : Nat → Row R n) (N nt T : Nat) (todo : Nat → List Nat)
    (hpos : ∀ q r, q < N → r < N → 0 ≤ dist (data q) (data r))
    (hself : ∀ r, r < N → dist (data r) (data r) = 0)
    (hsp : Split N T todo) (hn : 0 < N) (hnt : 0 < nt) (hlt : N < 4294967296)
    (sched : Nat → List Nat) (hc : ∀ i, Complete T todo (sched i))
    (first : Nat) (hf : first < N) (u : Nat → D) (hu : ∀ i, 0 ≤ u i ∧ u i ≤ 1)
    (hbig : ∀ r, r < N → dist (data r) (data first) < big)
    (s s' : Kpp R D k n) (hs : ∀ r, r < N → (s.slots r).dist = big)
    (hok : kpp dist data N nt T todo sched first u s = .ok s') (c : Fin k) :
    (c.val = 0 → s'.cltrs.means c = data first) ∧
    (0 < c.val → ∃ r d, s'.cltrs.means c = data r ∧
      MinTo dist data N (fun c' => c' < c) s'.cltrs.means d ∧ Sampled d N (u (c.val - 1)) r) := by
  obtain ⟨k, rfl⟩ : ∃ m, k = m + 1 := ⟨k - 1, by have := c.isLt; omega⟩
  have hfr : List.finRange (k + 1) = 0 :: (List.finRange k).map Fin.succ := List.finRange_succ
  have hnd := List.nodup_finRange (k + 1)
  rw [hfr, List.nodup_cons] at hnd
  have hpre := first_pre (dist := dist) (data := data) (N := N) (s := s) (c0 := (0 : Fin (k + 1)))
    (rest := (List.finRange k).map Fin.succ) (fun c => by
      have := List.mem_finRange c
      rw [hfr, List.mem_cons] at this
      exact this) hnd.1 hself hf hbig hs
  obtain ⟨s2, e, hp, hold, hch⟩ := kppLoop_spec (u := u) hpos hself hn hnt hlt hsp hc hu _ _ _
    hnd.2 hnd.1 hpre
  have hs2 : s2 = s' := by
    unfold kpp at hok
    rw [hfr] at hok
    simp only at hok
    rw [thdRow_ok hnt hf hlt] at hok
    simp only at hok
    rw [e] at hok
    exact Except.ok.inj hok
  subst hs2
  constructor
  · intro h0
    obtain rfl : c = 0 := Fin.ext h0
    rw [hold 0 hnd.1]
    show Function.update s.cltrs.means 0 (data first) 0 = _
    rw [Function.update_self]
  · intro hcpos
    obtain ⟨i, hi⟩ : ∃ i, c.val = i + 1 := ⟨c.val - 1, by omega⟩
    have hik : i < k := by have := c.isLt; omega
    have hdec : (List.finRange k).map Fin.succ = ((List.finRange k).map Fin.succ).take i ++
        c :: ((List.finRange k).map Fin.succ).drop (i + 1) := by
      conv_lhs => rw [← List.take_append_drop i ((List.finRange k).map Fin.succ)]
      rw [List.drop_eq_getElem_cons (by simpa using hik)]
      congr 2
      apply Fin.ext
      simp [hi]
    obtain ⟨r, d, g1, g2, g3⟩ := hch _ c _ hdec
    have hlast : (((0 : Fin (k + 1)) :: ((List.finRange k).map Fin.succ).take i).getLast (by simp)).val
        = c.val - 1 := by
      rw [hi, Nat.add_sub_cancel]
      have hcons : (0 : Fin (k + 1)) :: ((List.finRange k).map Fin.succ).take i
          = (List.finRange (k + 1)).take (i + 1) := by rw [hfr]; rfl
      rw [List.getLast_congr (by simp) (by simp) hcons, List.getLast_eq_getElem]
      simp
      omega
    have hnot : ∀ c' : Fin (k + 1), c' ∉ c :: ((List.finRange k).map Fin.succ).drop (i + 1) ↔ c' < c := by
      intro c'
      have hm : c :: ((List.finRange k).map Fin.succ).drop (i + 1)
          = (List.finRange (k + 1)).drop (i + 1) := by
        rw [List.drop_eq_getElem_cons (l := List.finRange (k + 1)) (i := i + 1)
          (by rw [List.length_finRange]; omega)]
        congr 1
        · apply Fin.ext; simp [hi]
        · rw [hfr]; rfl
      rw [hm, List.mem_iff_getElem]
      constructor
      · intro h
        by_contra hle
        refine h ⟨c'.val - (i + 1), ?_, ?_⟩
        · have := c'.isLt
          have : c.val ≤ c'.val := not_lt.1 hle
          simp; omega
        · have : c.val ≤ c'.val := not_lt.1 hle
          apply Fin.ext
          simp; omega
      · rintro hlt' ⟨j, hj, e⟩
        have : c'.val = i + 1 + j := by rw [← e]; simp
        have : c'.val < c.val := hlt'
        omega
    rw [hlast] at g3
    refine ⟨r, d, g1, ?_, g3⟩
    intro q hq
    obtain ⟨⟨c', w1, w2⟩, w3⟩ := g2 q hq
    exact ⟨⟨c', (hnot c').1 w1, w2⟩, fun c' hc' => w3 c' ((hnot c').2 hc')⟩

/-- The unpruned workers and the task queues both divide the rows as C29 requires. -/
theorem C29_both_engines (N nt : Nat) (hn : 0 < N) (hnt : 0 < nt) (hlt : N + 8192 < 4294967296) :
    Split N (effThreads nt N) (Kmeans.threadRows N nt) ∧
      Split N (effThreads nt N) (Prune.taskRows N nt) :=
  ⟨Kmeans.split_threadRows hn hnt (by omega), Prune.split_taskRows hn hnt hlt⟩

/-- **C29, during the run.**  Suppose `chosen` centres are in place, the last of them being `ci`,
and the stored distances are the minima over the others (or anything larger than the distance to
`ci`).  Then the next pass makes them the minima over all chosen centres, for every
interleaving, and the reduced total is the sum of those minima. -/
theorem C29_pass_keeps_minimum [Field D] [LinearOrder D] [IsStrictOrderedRing D]
    (dist : Row R n → Row R n → D)
    (data : Nat → Row R n) (N T : Nat) (todo : Nat → List Nat) (hsp : Split N T todo)
    (sched : List Nat) (hc : Complete T todo sched) (chosen : Fin k → Prop) (ci : Fin k)
    (hci : chosen ci) (s : Kpp R D k n)
    (hle : ∀ r, r < N → ∀ c, chosen c → c ≠ ci → (s.slots r).dist ≤ dist (data r) (s.cltrs.means c))
    (hval : ∀ r, r < N → dist (data r) (s.cltrs.means ci) < (s.slots r).dist ∨
      ∃ c, chosen c ∧ (s.slots r).assign = some c ∧
        (s.slots r).dist = dist (data r) (s.cltrs.means c)) :
    ∃ s' total, kppPass dist data T todo sched ci s = .ok (s', total) ∧ s'.cltrs = s.cltrs ∧
      total = ∑ r ∈ Finset.range N, (s'.slots r).dist ∧
      ∀ r, r < N → (∃ c, chosen c ∧ (s'.slots r).assign = some c ∧
          (s'.slots r).dist = dist (data r) (s.cltrs.means c)) ∧
        ∀ c, chosen c → (s'.slots r).dist ≤ dist (data r) (s.cltrs.means c) := by
  obtain ⟨s', total, e, h1, h2, _, h4⟩ := kppPass_spec (dist := dist) (data := data) (ci := ci)
    (s := s) hsp hc
  refine ⟨s', total, e, h1, h4, ?_⟩
  intro r hr
  rw [h2 r hr]
  unfold newSlot
  by_cases hlt : dist (data r) (s.cltrs.means ci) < (s.slots r).dist
  · rw [if_pos hlt]
    refine ⟨⟨ci, hci, rfl, rfl⟩, fun c hc => ?_⟩
    by_cases hcc : c = ci
    · subst hcc; exact le_refl _
    · exact le_trans (le_of_lt hlt) (hle r hr c hc hcc)
  · rw [if_neg hlt]
    refine ⟨(hval r hr).resolve_left hlt, fun c hc => ?_⟩
    by_cases hcc : c = ci
    · subst hcc; exact not_lt.1 hlt
    · exact hle r hr c hc hcc

/-- Distance of the witnesses. -/
def abs1 (x y : Row ℚ 1) : ℚ := if x 0 ≤ y 0 then y 0 - x 0 else x 0 - y 0

/-- What the k-means++ witnesses show. -/
structure SeenKpp where
  centres : List ℚ
  dists : List ℚ
  assign : List (Option (Fin 3))
  deriving DecidableEq, Repr

/-- Start state of the witnesses. -/
def kpp0 : Kpp ℚ ℚ 3 1 := ⟨Clusters.empty, fun _ => ⟨1000, none⟩⟩

/-- Draws of the witnesses. -/
def draws (i : Nat) : ℚ := if i = 0 then 1/2 else 0

/-- Run the witness. -/
def showKpp (first : Nat) : Res SeenKpp :=
  match kpp abs1 rows5 5 2 2 (Kmeans.threadRows 5 2) (fun _ => [1, 0, 1, 1, 0]) first draws kpp0 with
  | .error e => .error e
  | .ok s => .ok ⟨(List.finRange 3).map fun c => s.cltrs.means c 0,
      (List.range 5).map fun r => (s.slots r).dist, (List.range 5).map fun r => (s.slots r).assign⟩

example : showKpp 2 = .ok ⟨[10, 0, 0], [0, 1, 0, 2, 1], [some 2, some 1, some 0, some 0, some 0]⟩ := by
  decide +kernel

example : (∀ x y, 0 ≤ abs1 x y) ∧ (∀ x, abs1 x x = 0) ∧
    (∀ i, 0 ≤ draws i ∧ draws i ≤ 1) ∧ (∀ r, r < 5 → abs1 (rows5 r) (rows5 2) < 1000) ∧
    (∀ r, r < 5 → (kpp0.slots r).dist = 1000) ∧
    (∀ i : Nat, Complete 2 (Kmeans.threadRows 5 2) ((fun _ => [1, 0, 1, 1, 0]) i)) := by
  refine ⟨?_, ?_, ?_, ?_, fun _ _ => rfl, ?_⟩
  · intro x y; unfold abs1; split <;> linarith
  · intro x; unfold abs1; simp
  · intro i; unfold draws; split <;> norm_num
  · intro r hr
    have : r = 0 ∨ r = 1 ∨ r = 2 ∨ r = 3 ∨ r = 4 := by omega
    rcases this with rfl | rfl | rfl | rfl | rfl <;> decide +kernel
  · intro i
    show Complete 2 (Kmeans.threadRows 5 2) [1, 0, 1, 1, 0]
    intro t ht
    have : t = 0 ∨ t = 1 := by omega
    rcases this with rfl | rfl <;> (clear ht; decide)

/-- The choice in that run: the weights are the distances to row 2, and half of `1/(RAND_MAX - 1)` of their sum is
reached at row 0. -/
example : Sampled (fun q => abs1 (rows5 q) (rows5 2)) 5 (1/2) 0 := by unfold Sampled; decide +kernel

/-! ### C30: which rows can be selected -/

/-- The draw `u` selects row `r` as the next centre when the rows' weights are `d`. -/
def Selects [Field D] [LinearOrder D] (d : Nat → D) (N : Nat) (u : D) (r : Nat) : Prop :=
  (select d (List.range N) (threshold (∑ i ∈ Finset.range N, d i) u)).1 = some r

/-- **C30, as it should be**: every row with positive weight is selected by some draw in `[0,1)`. -/
def EveryRowSelectable (D : Type _) [Field D] [LinearOrder D] : Prop :=
  ∀ (d : Nat → D) (N : Nat), (∀ i, 0 ≤ d i) → ∀ r, r < N → 0 < d r →
    ∃ u, 0 ≤ u ∧ u < 1 ∧ Selects d N u r

/-- **C30, what holds instead (partial).**  The draw is divided by `RAND_MAX - 1`, so a row with
positive weight is selectable if and only if the rows before it carry less than the fraction
`1/(RAND_MAX - 1)` of the total weight. -/
theorem C30_selectable_rows_partial [Field D] [LinearOrder D] [IsStrictOrderedRing D]
    (d : Nat → D) (N : Nat) (hd : ∀ i, 0 ≤ d i) (r : Nat) (hr : r < N) (hpos : 0 < d r) :
    (∃ u, 0 ≤ u ∧ u < 1 ∧ Selects d N u r) ↔
      (∑ i ∈ Finset.range r, d i) * 2147483646 < ∑ i ∈ Finset.range N, d i := by
  set total := ∑ i ∈ Finset.range N, d i with htot
  set P := ∑ i ∈ Finset.range r, d i with hP
  have hPnn : 0 ≤ P := Finset.sum_nonneg fun i _ => hd i
  have htpos : 0 < total := lt_of_lt_of_le hpos
    (Finset.single_le_sum (f := d) (fun i _ => hd i) (Finset.mem_range.2 hr))
  have hK : (randDiv : D) = 2147483646 := by unfold randDiv; norm_num
  have hKpos : (0 : D) < 2147483646 := by norm_num
  have hsel : ∀ u, 0 ≤ u → u ≤ 1 → ∃ q y, select d (List.range N) (threshold total u) = (some q, y) ∧
      y ≤ 0 ∧ q < N ∧ y = threshold total u - ∑ i ∈ Finset.range (q + 1), d i ∧
      ∀ j, j < q → 0 < threshold total u - ∑ i ∈ Finset.range (j + 1), d i := by
    intro u h0 h1
    obtain ⟨q, y, e, k1, _, k3, k4, k5⟩ := select_spec d N 0 (threshold total u) (by omega) (by
      simp only [Nat.zero_add]; exact (threshold_le htpos.le h0 h1).1)
    rw [← List.range_eq_range'] at e
    simp only [Nat.zero_add, Nat.sub_zero] at k4 k5 k3
    exact ⟨q, y, e, k1, k3, k4, fun j hj => k5 j (by omega) hj⟩
  have hmono : ∀ a b, a ≤ b → ∑ i ∈ Finset.range a, d i ≤ ∑ i ∈ Finset.range b, d i := fun a b h =>
    Finset.sum_le_sum_of_subset_of_nonneg (Finset.range_subset_range.2 h) fun i _ _ => hd i
  constructor
  · rintro ⟨u, h0, h1, hs⟩
    obtain ⟨q, y, e, k1, k3, k4, k5⟩ := hsel u h0 h1.le
    unfold Selects at hs
    rw [← htot, e] at hs
    simp only [Option.some.injEq] at hs
    subst hs
    rcases Nat.eq_zero_or_pos q with rfl | hq
    · rw [hP, Finset.sum_range_zero, zero_mul]; exact htpos
    · have h := k5 (q - 1) (by omega)
      rw [Nat.sub_add_cancel hq, ← hP] at h
      unfold threshold at h
      rw [hK] at h
      have h2 : P < total * u / 2147483646 := by linarith
      rw [lt_div_iff₀ hKpos] at h2
      calc P * 2147483646 < total * u := h2
        _ ≤ total * 1 := mul_le_mul_of_nonneg_left h1.le htpos.le
        _ = total := mul_one _
  · intro h
    set a := P * 2147483646 / total with ha
    set b := min 1 ((P + d r) * 2147483646 / total) with hb
    have hab : a < b := by
      rw [hb, lt_min_iff, ha]
      refine ⟨(div_lt_one htpos).2 h, ?_⟩
      rw [div_lt_div_iff_of_pos_right htpos]
      nlinarith
    have ha0 : 0 ≤ a := div_nonneg (mul_nonneg hPnn hKpos.le) htpos.le
    refine ⟨(a + b) / 2, by linarith, ?_, ?_⟩
    · have : b ≤ 1 := min_le_left _ _
      linarith
    · have hb1 : b ≤ 1 := min_le_left _ _
      obtain ⟨q, y, e, k1, k3, k4, k5⟩ := hsel ((a + b) / 2) (by linarith) (by linarith)
      unfold Selects
      rw [← htot, e]
      simp only [Option.some.injEq]
      have hx1 : P < threshold total ((a + b) / 2) := by
        unfold threshold
        rw [hK, lt_div_iff₀ hKpos]
        have : a < (a + b) / 2 := by linarith
        rw [ha, div_lt_iff₀ htpos] at this
        rw [mul_comm total]; exact this
      have hx2 : threshold total ((a + b) / 2) ≤ P + d r := by
        unfold threshold
        rw [hK, div_le_iff₀ hKpos]
        have h1 : (a + b) / 2 ≤ (P + d r) * 2147483646 / total :=
          le_trans (by linarith) (min_le_right 1 ((P + d r) * 2147483646 / total))
        rw [le_div_iff₀ htpos] at h1
        rw [mul_comm total]; exact h1
      rcases lt_trichotomy q r with hlt | heq | hgt
      · exfalso
        have := hmono (q + 1) r (by omega)
        rw [← hP] at this
        rw [k4] at k1
        linarith
      · exact heq
      · exfalso
        have := k5 r hgt
        rw [Finset.sum_range_succ, ← hP] at this
        linarith

/-- **C30 is violated.**  Three rows with weights 0, 1 and 2 (rows 0, 1, 2 on a line, row 0 being
the first centre): no draw in `[0,1)` selects the last row. -/
theorem C30_violation : ¬ EveryRowSelectable ℚ := by
  intro h
  have h3 := h (fun i => (i : ℚ)) 3 (fun i => Nat.cast_nonneg i) 2 (by omega) (by norm_num)
  rw [C30_selectable_rows_partial (fun i => (i : ℚ)) 3 (fun i => Nat.cast_nonneg i) 2 (by omega)
    (by norm_num)] at h3
  revert h3
  rw [Finset.sum_range_succ, Finset.sum_range_succ, Finset.sum_range_succ, Finset.sum_range_succ,
    Finset.sum_range_succ]
  norm_num

/-- The violation in a whole run: rows 0, 1 and 2 with two clusters.  Whatever the draw, the
farthest row 2 never becomes a centre. -/
theorem C30_violation_run (u : Nat → ℚ) (hu : ∀ i, 0 ≤ u i ∧ u i ≤ 1) :
    ∃ s', kpp (k := 2) abs1 (fun r _ => (r : ℚ)) 3 1 1 (Kmeans.threadRows 3 1) (fun _ => [0, 0, 0]) 0 u
        ⟨Clusters.empty, fun _ => ⟨1000, none⟩⟩ = .ok s' ∧
      s'.cltrs.means 0 0 = 0 ∧ s'.cltrs.means 1 0 ≠ 2 := by
  have hsp : Split 3 1 (Kmeans.threadRows 3 1) :=
    Kmeans.split_threadRows (N := 3) (nt := 1) (by omega) (by omega) (by omega)
  have hc : Complete 1 (Kmeans.threadRows 3 1) [0, 0, 0] := by
    intro t ht
    obtain rfl : t = 0 := by omega
    decide
  set data : Nat → Row ℚ 1 := fun r _ => (r : ℚ) with hdata
  have habs : ∀ r : Nat, abs1 (data r) (data 0) = r := by
    intro r
    unfold abs1
    simp only [hdata, Nat.cast_zero]
    split
    · rename_i h
      have : (r : ℚ) = 0 := le_antisymm h (Nat.cast_nonneg r)
      rw [this]; norm_num
    · simp
  obtain ⟨s1, total, e1, c1, sl1, _, t1⟩ := kppPass_spec (dist := abs1) (data := data) (ci := (0 : Fin 2))
    (s := { cltrs := (Clusters.empty : Clusters ℚ 2 1).setMean (data 0) 0
            slots := Function.update (fun _ => (⟨1000, none⟩ : KppSlot ℚ 2)) 0 ⟨0, some 0⟩ })
    hsp hc
  have hm0 : ((Clusters.empty : Clusters ℚ 2 1).setMean (data 0) 0).means 0 = data 0 := by
    show Function.update (Clusters.empty : Clusters ℚ 2 1).means 0 (data 0) 0 = _
    rw [Function.update_self]
  have hd : ∀ r, r < 3 → (s1.slots r).dist = r := by
    intro r hr
    rw [sl1 r hr]
    simp only
    rw [hm0, habs]
    have : r = 0 ∨ r = 1 ∨ r = 2 := by omega
    rcases this with rfl | rfl | rfl <;> (unfold newSlot; simp [Function.update]) <;> (try norm_num)
  have htot : total = 3 := by
    rw [t1, Finset.sum_range_succ, Finset.sum_range_succ, Finset.sum_range_succ,
      Finset.sum_range_zero, hd 0 (by omega), hd 1 (by omega), hd 2 (by omega)]
    norm_num
  have hthr := threshold_le (total := total) (u := u 0) (by rw [htot]; norm_num) (hu 0).1 (hu 0).2
  have hsmall : threshold total (u 0) ≤ 1 := by
    unfold threshold randDiv
    rw [htot, div_le_iff₀ (by norm_num)]
    have := (hu 0).2
    push_cast
    linarith
  obtain ⟨r, y, es, k1, _, k3, k4, k5⟩ := select_spec (fun r => (s1.slots r).dist) 3 0
    (threshold total (u 0)) (by omega) (by simp only [Nat.zero_add]; rw [← t1]; exact hthr.1)
  rw [← List.range_eq_range'] at es
  have hr2 : r ≠ 2 := by
    rintro rfl
    have := k5 1 (by omega) (by omega)
    rw [Finset.sum_range_succ, Finset.sum_range_succ] at this
    simp only [Nat.zero_add, Nat.sub_zero, Finset.range_zero, Finset.sum_empty] at this
    rw [hd 0 (by omega), hd 1 (by omega)] at this
    norm_num at this
    linarith
  obtain ⟨s2, total2, e2, c2, _⟩ := kppPass_spec (dist := abs1) (data := data) (ci := (1 : Fin 2))
    (s := s1.choose (data r) r 1) hsp hc
  refine ⟨s2, ?_, ?_, ?_⟩
  · unfold kpp
    rw [show List.finRange 2 = [0, 1] from rfl]
    simp only
    rw [thdRow_ok (by omega) (by omega) (by omega)]
    simp only
    unfold kppLoop
    rw [e1]
    simp only
    rw [show ((0 : Fin 2).val) = 0 from rfl, es]
    simp only
    rw [thdRow_ok (by omega) (by omega) (by omega)]
    simp only
    rw [if_pos k1]
    unfold kppLoop
    rw [e2]
  · rw [c2]
    show Function.update s1.cltrs.means 1 (data r) 0 0 = 0
    rw [Function.update_of_ne (by decide), c1, hm0]
    simp [hdata]
  · rw [c2]
    show Function.update s1.cltrs.means 1 (data r) 1 0 ≠ 2
    rw [Function.update_self]
    show (r : ℚ) ≠ 2
    exact_mod_cast hr2

/-- Rows before the last one carry too much weight already when one of them has weight 1. -/
example : ∃ u : ℚ, 0 ≤ u ∧ u < 1 ∧ Selects (fun i => if i = 0 then 0 else 1) 3 u 1 :=
  ⟨1/2, by norm_num, by norm_num, by unfold Selects; decide +kernel⟩

/-- **C30, second half (partial).**  A draw that is not zero never selects a row that coincides with
a chosen centre, as long as some row has positive weight. -/
theorem C30_no_duplicate_centre_partial [Field D] [LinearOrder D] [IsStrictOrderedRing D]
    (d : Nat → D) (N : Nat) (hd : ∀ i, 0 ≤ d i) (hsome : ∃ r, r < N ∧ 0 < d r)
    (u : D) (h0 : 0 < u) (h1 : u ≤ 1) (r : Nat) (hs : Selects d N u r) : 0 < d r := by
  obtain ⟨i, hi, hpi⟩ := hsome
  have htpos : 0 < ∑ i ∈ Finset.range N, d i := lt_of_lt_of_le hpi
    (Finset.single_le_sum (f := d) (fun i _ => hd i) (Finset.mem_range.2 hi))
  have hKpos : (0 : D) < randDiv := lt_of_lt_of_le one_pos randDiv_ge
  have hx : 0 < threshold (∑ i ∈ Finset.range N, d i) u := div_pos (mul_pos htpos h0) hKpos
  obtain ⟨q, y, e, k1, _, k3, k4, k5⟩ := select_spec d N 0
    (threshold (∑ i ∈ Finset.range N, d i) u) (by omega) (by
      simp only [Nat.zero_add]; exact (threshold_le htpos.le h0.le h1).1)
  rw [← List.range_eq_range'] at e
  unfold Selects at hs
  rw [e] at hs
  simp only [Option.some.injEq] at hs
  subst hs
  simp only [Nat.zero_add, Nat.sub_zero] at k4 k5
  by_contra hneg
  have hdq : d q = 0 := le_antisymm (not_lt.1 hneg) (hd q)
  rw [Finset.sum_range_succ, hdq, add_zero] at k4
  rcases Nat.eq_zero_or_pos q with rfl | hq
  · rw [Finset.sum_range_zero, sub_zero] at k4
    linarith
  · have h := k5 (q - 1) (by omega) (by omega)
    rw [Nat.sub_add_cancel hq] at h
    linarith

/-! ### C53: distributed k-means++ -/

/-- **C53.**  The distributed k-means++ (both versions), started with no centres and no row assigned,
returns normally, and every rank ends with exactly the centres, and for its own rows exactly the
stored distances and clusters, that the single-process version computes on the whole data set from
the same first row and draws — for every number of ranks up to the number of rows, every division of
the ranks' rows among their threads and every interleaving. -/
theorem C53_distributed_kmeanspp [AddCommMonoid R] [Field D] [LinearOrder D]
    [IsStrictOrderedRing D] (zeroIt : Bool)
    (dist : Row R n → Row R n → D) (big : D) (data : Nat → Row R n) (g np nt T' : Nat) (T : Nat → Nat)
    (todo' : Nat → List Nat) (todo : Nat → Nat → List Nat)
    (hpos : ∀ q r, q < g → r < g → 0 ≤ dist (data q) (data r))
    (hself : ∀ r, r < g → dist (data r) (data r) = 0)
    (hsp' : Split g T' todo') (hsp : ∀ p, p < np → Split (procNrow g np p) (T p) (todo p))
    (hk : 0 < k) (hnp : 0 < np) (hg : np ≤ g) (hnt : 0 < nt) (hlt : g < 4294967296)
    (sched' : Nat → List Nat) (sched : Nat → Nat → List Nat)
    (hc' : ∀ i, Complete T' todo' (sched' i))
    (hc : ∀ i p, p < np → Complete (T p) (todo p) (sched i p))
    (first : Nat) (hf : first < g) (u : Nat → D) (hu : ∀ i, 0 ≤ u i ∧ u i ≤ 1)
    (hbig : ∀ r, r < g → dist (data r) (data first) < big)
    (s : Kpp R D k n) (ps : Nat → Kpp R D k n)
    (hm : ∀ c j, s.cltrs.means c j = 0) (hs : ∀ r, s.slots r = ⟨big, none⟩)
    (hpm : ∀ p, p < np → ∀ c j, (ps p).cltrs.means c j = 0)
    (hps : ∀ p, p < np → ∀ r, (ps p).slots r = ⟨big, none⟩) :
    ∃ s' ps', kpp dist data g nt T' todo' sched' first u s = .ok s' ∧
      kppDist zeroIt dist data g np nt T todo sched first u ps = .ok ps' ∧
      ∀ p, p < np → (ps' p).cltrs.means = s'.cltrs.means ∧
        ∀ r, r < procNrow g np p → (ps' p).slots r = s'.slots (p * (g / np) + r) := by
  obtain ⟨k, rfl⟩ : ∃ m, k = m + 1 := ⟨k - 1, by omega⟩
  have hfr : List.finRange (k + 1) = 0 :: (List.finRange k).map Fin.succ := List.finRange_succ
  have hnd := List.nodup_finRange (k + 1)
  rw [hfr, List.nodup_cons] at hnd
  have hpre := first_pre (dist := dist) (data := data) (N := g) (s := s) (c0 := (0 : Fin (k + 1)))
    (rest := (List.finRange k).map Fin.succ) (fun c => by
      have := List.mem_finRange c
      rw [hfr, List.mem_cons] at this
      exact this) hnd.1 hself hf hbig (fun r _ => by rw [hs r])
  obtain ⟨p, l, hp, hl, er, hloc, hrid, hother⟩ := owner_spec (g := g) hnp hf (by omega)
  have hpl : procNrow g np p ≤ g := Distr.procNrow_le hp
  have howner : firstDist data g np p nt first 0 (ps p) = .ok
      { cltrs := (ps p).cltrs.setMean (data first) 0
        slots := Function.update (ps p).slots l ⟨0, some 0⟩ } := by
    unfold firstDist
    rw [if_pos hloc, hrid]
    simp only
    rw [thdRow_ok hnt hl (by omega)]
    have : Distr.procData data g np p l = data first := by rw [er]; rfl
    rw [this]
  have hoth : ∀ q, q < np → q ≠ p → firstDist data g np q nt first 0 (ps q) = .ok (ps q) := by
    intro q hq hne
    unfold firstDist
    rw [if_neg (by rw [hother q hq hne]; simp)]
  obtain ⟨m, e, hmm⟩ := Distr.eachRank_ok
    (f := fun p => firstDist data g np p nt first 0 (ps p)) (np := np) (d := ps) (by
      intro q hq
      by_cases h : q = p
      · subst h; exact ⟨_, howner⟩
      · exact ⟨_, hoth q hq h⟩)
  have hmp : m p = { cltrs := (ps p).cltrs.setMean (data first) 0
                     slots := Function.update (ps p).slots l ⟨0, some 0⟩ } := by
    have := hmm p hp
    rw [howner, Except.ok.injEq] at this
    exact this.symm
  have hmq : ∀ q, q < np → q ≠ p → m q = ps q := by
    intro q hq hne
    have := hmm q hq
    rw [hoth q hq hne, Except.ok.injEq] at this
    exact this.symm
  have hrel : RelPre dist data g np (0 : Fin (k + 1)) (reduceMeans np m)
      { cltrs := s.cltrs.setMean (data first) 0
        slots := Function.update s.slots first ⟨0, some 0⟩ } := by
    constructor
    · intro q hq
      funext c j
      show Distr.allreduce np (fun q => (m q).cltrs.means c j)
        = Function.update s.cltrs.means 0 (data first) c j
      rw [allreduce_single hp]
      · rw [hmp]
        show Function.update (ps p).cltrs.means 0 (data first) c j = _
        by_cases hcc : c = 0
        · subst hcc; rw [Function.update_self, Function.update_self]
        · rw [Function.update_of_ne hcc, Function.update_of_ne hcc, hm, hpm p hp]
      · intro q' hq' hne
        rw [hmq q' hq' hne, hpm q' hq']
    · intro q l' hq hl'
      congr 1
      show (m q).slots l' = Function.update s.slots first ⟨0, some 0⟩ (Distr.off g np q + l')
      by_cases hqp : q = p
      · subst hqp
        rw [hmp]
        simp only
        by_cases hll : l' = l
        · subst hll; rw [← er, Function.update_self, Function.update_self]
        · rw [Function.update_of_ne hll, Function.update_of_ne (by omega), hps q hq, hs]
      · rw [hmq q hq hqp, Function.update_of_ne, hps q hq, hs]
        intro h
        have h2 := hother q hq hqp
        rw [(isLocal_iff (by omega) hq hf).2 (by rw [← h]; unfold Distr.off; omega)] at h2
        simp at h2
  obtain ⟨s', ps', e1, e2, hr⟩ := kppLoopDist_sim (zeroIt := zeroIt) (u := u) hpos hself hnp hg hnt
    hlt hsp' hc' hsp hc hu _ _ _ _ hnd.2 hnd.1 hpre hrel
  refine ⟨s', ps', ?_, ?_, fun p hp => ⟨hr.means p hp, fun r hr' => hr.slots p r hp hr'⟩⟩
  · unfold kpp
    rw [hfr]
    simp only
    rw [thdRow_ok hnt hf hlt]
    exact e1
  · unfold kppDist
    rw [hfr]
    simp only
    rw [e]
    exact e2

/-- Two ranks choose the centres of the single-process witness above. -/
def showKppDist (zeroIt : Bool) : Res (List SeenKpp) :=
  match kppDist zeroIt abs1 rows5 5 2 2 (fun _ => 2)
      (fun p => Kmeans.threadRows (procNrow 5 2 p) 2) (fun _ _ => [1, 0, 1, 1, 0]) 2 draws
      (fun _ => kpp0) with
  | .error e => .error e
  | .ok s => .ok ((List.range 2).map fun p => ⟨(List.finRange 3).map fun c => (s p).cltrs.means c 0,
      (List.range (procNrow 5 2 p)).map fun r => ((s p).slots r).dist,
      (List.range (procNrow 5 2 p)).map fun r => ((s p).slots r).assign⟩)

example : showKppDist false = .ok [⟨[10, 0, 0], [0, 1], [some 2, some 1]⟩,
    ⟨[10, 0, 0], [0, 2, 1], [some 0, some 0, some 0]⟩] := by decide +kernel

example : showKppDist true = .ok [⟨[10, 0, 0], [0, 1], [some 2, some 1]⟩,
    ⟨[10, 0, 0], [0, 2, 1], [some 0, some 0, some 0]⟩] := by decide +kernel

end Knor.Init
