import Verif.Lemmas.Kmeans
import Verif.Spec.Rounding

/-!
# One k-means iteration in closed form, for any arithmetic
-/

namespace Knor.Clusters

variable {R : Type _} {k n : Nat}

theorem foldl_peq_any [Add R] (l : List (Clusters R k n)) : ∀ (s : Clusters R k n),
    (l.foldl peq s).complete = s.complete ∧
    (∀ c j, (l.foldl peq s).means c j = (l.map fun x => x.means c j).foldl (· + ·) (s.means c j)) ∧
    (∀ c, (l.foldl peq s).num c = s.num c + (l.map fun x => x.num c).sum) := by
  induction l with
  | nil => intro s; simp
  | cons a l ih =>
    intro s
    obtain ⟨h1, h2, h3⟩ := ih (s.peq a)
    simp only [List.foldl_cons]
    refine ⟨by rw [h1]; rfl, ?_, ?_⟩
    · intro c j; rw [h2]; simp [peq]
    · intro c; rw [h3]; simp [peq]; ring

theorem foldl_addMember_any [Add R] (data : Nat → Row R n) (ch : Nat → Fin k)
    (rs : List Nat) : ∀ (s : Clusters R k n),
    (rs.foldl (fun s r => s.addMember (data r) (ch r)) s).complete = s.complete ∧
    (∀ c j, (rs.foldl (fun s r => s.addMember (data r) (ch r)) s).means c j
      = ((rs.filter fun r => ch r = c).map fun r => data r j).foldl (· + ·) (s.means c j)) ∧
    (∀ c, (rs.foldl (fun s r => s.addMember (data r) (ch r)) s).num c
      = s.num c + (rs.map fun r => if ch r = c then (1 : Int) else 0).sum) := by
  induction rs with
  | nil => intro s; simp
  | cons a l ih =>
    intro s
    obtain ⟨h1, h2, h3⟩ := ih (s.addMember (data a) (ch a))
    simp only [List.foldl_cons]
    refine ⟨by rw [h1]; rfl, ?_, ?_⟩
    · intro c j
      rw [h2]
      by_cases h : ch a = c
      · subst h; simp [addMember]
      · have h' : c ≠ ch a := Ne.symm h
        simp [addMember, Function.update_of_ne h', h]
    · intro c
      rw [h3]
      by_cases h : ch a = c
      · subst h; simp [addMember]; ring
      · have h' : c ≠ ch a := Ne.symm h
        simp [addMember, Function.update_of_ne h', h]

end Knor.Clusters

namespace Knor.Kmeans

open Knor Knor.Par Knor.Partition Knor.Spec

variable {R D : Type _} {k n : Nat}

/-- The sum of cluster `c` as computed: every worker adds up its own members in row order, and the workers'
sums are added up in worker order. -/
def sumAny [Zero R] [Add R] (T : Nat) (todo : Nat → List Nat) (data : Nat → Row R n)
    (a : Nat → Option (Fin k)) (c : Fin k) (j : Fin n) : R :=
  sumSeq ((List.range T).map fun t =>
    sumSeq (((todo t).filter fun r => a r = some c).map fun r => data r j))

/-- Cluster object determined by an assignment. -/
def clustersAny [Zero R] [Add R] [Div R] [IntCast R] (N T : Nat) (todo : Nat → List Nat)
    (data : Nat → Row R n) (a : Nat → Option (Fin k)) : Clusters R k n :=
  { means := fun c j =>
      if 1 < Spec.count N a c then sumAny T todo data a c j / ((Spec.count N a c : Int) : R)
      else sumAny T todo data a c j
    num := fun c => (Spec.count N a c : Int)
    complete := fun _ => true }

theorem updateClusters_any [Zero R] [Add R] [Div R] [IntCast R] {N T : Nat} {todo : Nat → List Nat}
    (hsp : Split N T todo) (data : Nat → Row R n) (ch : Nat → Fin k)
    (old new : Nat → Option (Fin k)) (hnew : ∀ r, r < N → new r = some (ch r))
    (acc : Nat → Acc R k n)
    (hacc : ∀ t, acc t = (todo t).foldl (fun a r =>
      { changed := if new r ≠ old r then a.changed + 1 else a.changed
        loc := a.loc.addMember (data r) (ch r) }) Acc.init) :
    updateClusters N T acc new =
      .ok { cltrs := clustersAny N T todo data new
            assign := new
            counts := fun c => (Spec.count N new c : Int)
            changed := numChanged N old new } := by
  have fold2 : ∀ (l : List Nat) (a : Acc R k n),
      l.foldl (fun a r =>
        ({ changed := if new r ≠ old r then a.changed + 1 else a.changed
           loc := a.loc.addMember (data r) (ch r) } : Acc R k n)) a
      = ⟨a.changed + (l.map fun r => if new r ≠ old r then 1 else 0).sum,
          l.foldl (fun s r => s.addMember (data r) (ch r)) a.loc⟩ := by
    intro l
    induction l with
    | nil => intro a; simp
    | cons x l ih =>
      intro a
      simp only [List.foldl_cons, ih, List.map_cons, List.sum_cons]
      by_cases h : new x = old x
      · simp [h]
      · simp [h]; omega
  have hchg : ∀ t, (acc t).changed = ((todo t).map fun r => if new r ≠ old r then 1 else 0).sum := by
    intro t; rw [hacc t, fold2]; simp [Acc.init]
  have hloc : ∀ t, (acc t).loc = (todo t).foldl (fun s r => s.addMember (data r) (ch r))
      Clusters.empty := by
    intro t; rw [hacc t, fold2]; rfl
  have hchanged : (List.range T).foldl (fun m t => m + (acc t).changed) 0
      = numChanged N old new := by
    rw [foldl_add_eq, numChanged_eq_sum, ← hsp.sum, Nat.zero_add]
    simp only [hchg]
  obtain ⟨m1, m2, m3⟩ := Clusters.foldl_peq_any ((List.range T).map fun t => (acc t).loc)
    (Clusters.empty : Clusters R k n)
  have hmeans : ∀ c j, ((List.range T).foldl (fun s t => Clusters.peq s (acc t).loc)
      (Clusters.empty : Clusters R k n)).means c j = sumAny T todo data new c j := by
    intro c j
    rw [foldl_map' Clusters.peq (fun t => (acc t).loc), m2, List.map_map]
    unfold sumAny sumSeq
    rw [show (Clusters.empty : Clusters R k n).means c j = 0 from rfl]
    congr 1
    apply List.map_congr_left
    intro t _
    simp only [Function.comp_apply, hloc]
    rw [(Clusters.foldl_addMember_any data ch (todo t) Clusters.empty).2.1]
    rw [show (Clusters.empty : Clusters R k n).means c j = 0 from rfl]
    congr 2
    apply List.filter_congr
    intro r hr
    rw [hnew r ((hsp.mem_iff r).1 ⟨t, hr⟩)]
    simp
  have hnum : ∀ c, ((List.range T).foldl (fun s t => Clusters.peq s (acc t).loc)
      (Clusters.empty : Clusters R k n)).num c = (Spec.count N new c : Int) := by
    intro c
    rw [foldl_map' Clusters.peq (fun t => (acc t).loc), m3, List.map_map, count_eq]
    rw [show (Clusters.empty : Clusters R k n).num c = 0 from rfl, zero_add]
    have : ∀ t, ((fun x : Clusters R k n => x.num c) ∘ fun t => (acc t).loc) t
        = ((todo t).map fun r => if ch r = c then (1 : Int) else 0).sum := by
      intro t
      simp only [Function.comp_apply, hloc]
      rw [(Clusters.foldl_addMember_any data ch (todo t) Clusters.empty).2.2]
      simp [Clusters.empty]
    rw [show ((fun x : Clusters R k n => x.num c) ∘ fun t => (acc t).loc)
      = fun t => ((todo t).map fun r => if ch r = c then (1 : Int) else 0).sum from funext this]
    rw [hsp.sum]
    apply Finset.sum_congr rfl
    intro r hr
    rw [hnew r (Finset.mem_range.1 hr)]; simp
  have hcomp : ∀ c, ((List.range T).foldl (fun s t => Clusters.peq s (acc t).loc)
      (Clusters.empty : Clusters R k n)).complete c = false := by
    intro c
    rw [foldl_map' Clusters.peq (fun t => (acc t).loc), m1]; rfl
  have hfin : ((List.range T).foldl (fun s t => Clusters.peq s (acc t).loc)
      (Clusters.empty : Clusters R k n)).finalizeAll = clustersAny N T todo data new := by
    apply Clusters.ext
    · funext c j
      rw [Clusters.finalizeAll_means]
      unfold Clusters.finMean clustersAny
      simp only [hcomp c, hnum c, Bool.false_eq_true, if_false]
      by_cases h : 1 < Spec.count N new c
      · rw [if_pos h, if_pos (by exact_mod_cast h), hmeans]
      · rw [if_neg h, if_neg (by exact_mod_cast h), hmeans]
    · rw [Clusters.finalizeAll_num]; funext c; exact hnum c
    · funext c; rw [Clusters.finalizeAll_complete]; rfl
  unfold updateClusters
  simp only [hfin, hchanged]
  have hchk : (List.finRange k).foldl (fun m c => m + (clustersAny N T todo data new).num c) (0 : Int)
      = (N : Int) := by
    rw [foldl_add_eq, sum_finRange, zero_add]
    unfold clustersAny
    simp only
    rw [← Nat.cast_sum, sum_count_of_all_assigned N new fun r hr => ⟨ch r, hnew r hr⟩]
  rw [if_neg (by rw [hchk]; simp), if_neg (by have := numChanged_le N old new; omega)]
  rfl

/-- An iteration in closed form, for distances that may be NaN: it is enough that the scan finds a cluster for
every row. -/
theorem iteration_scan [Zero R] [Add R] [Div R] [IntCast R] [LT D] [DecidableLT D]
    {dist : Row R n → Row R n → D} {big : D}
    {data : Nat → Row R n} {N nt : Nat} {sched : List Nat} {s : KState R k n}
    (hn : 0 < N) (hnt : 0 < nt) (hlt : N < 4294967296)
    (hc : Complete (effThreads nt N) (threadRows N nt) sched)
    (hb : ∀ r, r < N → ∃ c, emScan big (fun c => dist (data r) (s.cltrs.means c)) = some c) :
    iteration dist big data N nt sched s =
      let new := newAssign dist big data N s.cltrs.means s.assign
      .ok { cltrs := clustersAny N (effThreads nt N) (threadRows N nt) data new
            assign := new
            counts := fun c => (Spec.count N new c : Int)
            changed := numChanged N s.assign new } := by
  have hsp := split_threadRows hn hnt hlt
  obtain ⟨c0, _⟩ := hb 0 hn
  set new := newAssign dist big data N s.cltrs.means s.assign with hnewdef
  have hnew : ∀ r, r < N → new r = some ((new r).getD c0) := by
    intro r hr
    obtain ⟨c, hc⟩ := hb r hr
    have : new r = some c := by rw [hnewdef]; unfold newAssign; rw [if_pos hr]; exact hc
    rw [this]; rfl
  obtain ⟨p, h1, _, h3, h4, h5⟩ := run_complete (μ := Option (Fin k)) (α := Acc R k n)
    (f := emRow dist big data s.cltrs.means) (T := effThreads nt N)
    (s0 := { mem := s.assign, acc := fun _ => Acc.init, todo := threadRows N nt })
    (newMem := new)
    (upd := fun r a =>
      { changed := if new r ≠ s.assign r then a.changed + 1 else a.changed
        loc := a.loc.addMember (data r) ((new r).getD c0) })
    hsp.disjoint hsp.idle
    (by
      intro t r a hr
      have hrN : r < N := (hsp.mem_iff r).1 ⟨t, hr⟩
      have e : emScan big (fun c => dist (data r) (s.cltrs.means c)) = new r := by
        rw [hnewdef]; unfold newAssign; rw [if_pos hrN]
      unfold emRow
      simp only [e]
      rw [hnew r hrN]
      simp)
    hc
  have hmem : p.mem = new := by
    funext r
    by_cases hr : r < N
    · obtain ⟨t, ht⟩ := (hsp.mem_iff r).2 hr
      exact h3 t r ht
    · rw [h4 r fun t ht => hr ((hsp.mem_iff r).1 ⟨t, ht⟩)]
      simp [hnewdef, newAssign, hr]
  unfold iteration
  rw [h1]
  simp only
  rw [hmem]
  exact updateClusters_any hsp data (fun r => (new r).getD c0) s.assign new hnew p.acc h5

theorem iteration_any [Zero R] [Add R] [Div R] [IntCast R] [LinearOrder D]
    {dist : Row R n → Row R n → D} {big : D}
    {data : Nat → Row R n} {N nt : Nat} {sched : List Nat} {s : KState R k n}
    (hn : 0 < N) (hnt : 0 < nt) (hlt : N < 4294967296)
    (hc : Complete (effThreads nt N) (threadRows N nt) sched)
    (hb : ∀ r, r < N → ∃ c, dist (data r) (s.cltrs.means c) < big) :
    iteration dist big data N nt sched s =
      let new := newAssign dist big data N s.cltrs.means s.assign
      .ok { cltrs := clustersAny N (effThreads nt N) (threadRows N nt) data new
            assign := new
            counts := fun c => (Spec.count N new c : Int)
            changed := numChanged N s.assign new } :=
  iteration_scan hn hnt hlt hc fun r hr => emScan_exists (hb r hr)

end Knor.Kmeans
