import Verif.Lemmas.NearLloyd
import Verif.Lemmas.Distr

/-!
# Distributed k-means in rounded arithmetic
-/

namespace Knor.Kmeans

open Knor Knor.Par Knor.Partition Knor.Spec

variable {R D : Type _} {k n : Nat}

/-- Merging the workers' accumulators, for any arithmetic. -/
theorem merge_any [Zero R] [Add R] {N T : Nat} {todo : Nat → List Nat}
    (hsp : Split N T todo) (data : Nat → Row R n) (ch : Nat → Fin k)
    (old new : Nat → Option (Fin k)) (hnew : ∀ r, r < N → new r = some (ch r))
    (acc : Nat → Acc R k n)
    (hacc : ∀ t, acc t = (todo t).foldl (fun a r =>
      { changed := if new r ≠ old r then a.changed + 1 else a.changed
        loc := a.loc.addMember (data r) (ch r) }) Acc.init) :
    (List.range T).foldl (fun s t => Clusters.peq s (acc t).loc) (Clusters.empty : Clusters R k n) =
      { means := sumAny T todo data new
        num := fun c => (Spec.count N new c : Int)
        complete := fun _ => false } ∧
    (List.range T).foldl (fun m t => m + (acc t).changed) 0 = numChanged N old new := by
  have fold2 : ∀ (l : List Nat) (a : Acc R k n),
      l.foldl (fun a r =>
        ({ changed := if new r ≠ old r then a.changed + 1 else a.changed
           loc := a.loc.addMember (data r) (ch r) } : Acc R k n)) a
      = ⟨a.changed + (l.map fun r => if new r ≠ old r then 1 else 0).sum,
          l.foldl (fun s r => s.addMember (data r) (ch r)) a.loc⟩ := by
    intro l
    induction l with
    | nil => intro a; simp
    | cons x l ih =>
      intro a
      simp only [List.foldl_cons, ih, List.map_cons, List.sum_cons]
      by_cases h : new x = old x
      · simp [h]
      · simp [h]; omega
  have hchg : ∀ t, (acc t).changed = ((todo t).map fun r => if new r ≠ old r then 1 else 0).sum := by
    intro t; rw [hacc t, fold2]; simp [Acc.init]
  have hloc : ∀ t, (acc t).loc = (todo t).foldl (fun s r => s.addMember (data r) (ch r))
      Clusters.empty := by
    intro t; rw [hacc t, fold2]; rfl
  obtain ⟨m1, m2, m3⟩ := Clusters.foldl_peq_any ((List.range T).map fun t => (acc t).loc)
    (Clusters.empty : Clusters R k n)
  refine ⟨?_, ?_⟩
  · apply Clusters.ext
    · funext c j
      rw [foldl_map' Clusters.peq (fun t => (acc t).loc), m2, List.map_map]
      unfold sumAny sumSeq
      rw [show (Clusters.empty : Clusters R k n).means c j = 0 from rfl]
      congr 1
      apply List.map_congr_left
      intro t _
      simp only [Function.comp_apply, hloc]
      rw [(Clusters.foldl_addMember_any data ch (todo t) Clusters.empty).2.1]
      rw [show (Clusters.empty : Clusters R k n).means c j = 0 from rfl]
      congr 2
      apply List.filter_congr
      intro r hr
      rw [hnew r ((hsp.mem_iff r).1 ⟨t, hr⟩)]
      simp
    · funext c
      rw [foldl_map' Clusters.peq (fun t => (acc t).loc), m3, List.map_map]
      change _ = (Spec.count N new c : Int)
      rw [count_eq]
      rw [show (Clusters.empty : Clusters R k n).num c = 0 from rfl, zero_add]
      have : ∀ t, ((fun x : Clusters R k n => x.num c) ∘ fun t => (acc t).loc) t
          = ((todo t).map fun r => if ch r = c then (1 : Int) else 0).sum := by
        intro t
        simp only [Function.comp_apply, hloc]
        rw [(Clusters.foldl_addMember_any data ch (todo t) Clusters.empty).2.2]
        simp [Clusters.empty]
      rw [show ((fun x : Clusters R k n => x.num c) ∘ fun t => (acc t).loc)
        = fun t => ((todo t).map fun r => if ch r = c then (1 : Int) else 0).sum from funext this]
      rw [hsp.sum]
      apply Finset.sum_congr rfl
      intro r hr
      rw [hnew r (Finset.mem_range.1 hr)]; simp
    · funext c
      rw [foldl_map' Clusters.peq (fun t => (acc t).loc), m1]; rfl
  · rw [foldl_add_eq, numChanged_eq_sum, ← hsp.sum, Nat.zero_add]
    simp only [hchg]

theorem sumAny_congr [Zero R] [Add R] {N T : Nat} {todo : Nat → List Nat} (hsp : Split N T todo)
    {data : Nat → Row R n} {a b : Nat → Option (Fin k)} (h : ∀ r, r < N → a r = b r) :
    sumAny T todo data a = sumAny T todo data b := by
  funext c j
  unfold sumAny
  congr 1
  apply List.map_congr_left
  intro t _
  congr 2
  apply List.filter_congr
  intro r hr
  rw [h r ((hsp.mem_iff r).1 ⟨t, hr⟩)]

end Knor.Kmeans

namespace Knor.Spec

variable {R F : Type _} [Zero R] [Add R] [Div R] [IntCast R] [Field F] [LinearOrder F]
  [IsStrictOrderedRing F] {fin : R → Prop} {val : R → F} {u η M : F} {K : Nat}

/-- A reduction in any order adds fewer roundings than it adds numbers. -/
theorem near_tree (hR : Rounds fin val u η M K) (f : Nat → R) (x a : Nat → F) {m0 : Nat} :
    ∀ t : Distr.SumTree, (∀ p ∈ t.ranks, Near fin val u m0 (f p) (x p) (a p)) →
    (1 + u) ^ (m0 + t.ranks.length) * (t.ranks.map a).sum ≤ M →
    Near fin val u (m0 + (t.ranks.length - 1)) (t.eval f) (t.ranks.map x).sum (t.ranks.map a).sum ∧
      0 < t.ranks.length := by
  have hu := hR.u_nonneg
  have hone : ∀ m : Nat, (0 : F) ≤ (1 + u) ^ m := fun m => pow_nonneg (by linarith) m
  have hpos : ∀ l : List Nat, (∀ p ∈ l, Near fin val u m0 (f p) (x p) (a p)) → 0 ≤ (l.map a).sum := by
    intro l hl
    apply List.sum_nonneg
    intro z hz
    obtain ⟨p, hp, rfl⟩ := List.mem_map.1 hz
    exact (abs_nonneg _).trans (hl p hp).le
  intro t
  induction t with
  | leaf p =>
    intro h _
    refine ⟨?_, by simp [Distr.SumTree.ranks]⟩
    simpa [Distr.SumTree.ranks, Distr.SumTree.eval] using h p (by simp [Distr.SumTree.ranks])
  | node l r ihl ihr =>
    intro h hM
    simp only [Distr.SumTree.ranks, List.mem_append, List.map_append, List.sum_append, List.length_append] at h hM ⊢
    have hl := fun p hp => h p (Or.inl hp)
    have hr := fun p hp => h p (Or.inr hp)
    have l0 := hpos _ hl
    have r0 := hpos _ hr
    have hle : ∀ {m : Nat} {b : F}, m ≤ m0 + (l.ranks.length + r.ranks.length) → 0 ≤ b →
        b ≤ (l.ranks.map a).sum + (r.ranks.map a).sum → (1 + u) ^ m * b ≤ M := by
      intro m b hm hb0 hb
      refine le_trans ?_ hM
      exact mul_le_mul (pow_le_pow_right₀ (by linarith) hm) hb hb0 (hone _)
    obtain ⟨n1, p1⟩ := ihl hl (hle (by omega) l0 (by linarith))
    obtain ⟨n2, p2⟩ := ihr hr (hle (by omega) r0 (by linarith))
    refine ⟨?_, by omega⟩
    have := (n1.mono hu (show _ ≤ m0 + (l.ranks.length + r.ranks.length - 2) by omega)).add hR
      (n2.mono hu (by omega)) (hle (by omega) (by linarith) le_rfl)
    rw [show m0 + (l.ranks.length + r.ranks.length - 2) + 1 = m0 + (l.ranks.length + r.ranks.length - 1) by omega]
      at this
    exact this

end Knor.Spec

namespace Knor.Distr

open Knor Knor.Par Knor.Partition Knor.Spec

variable {R D F : Type _} {k n : Nat}

/-- With exact sums the order of a reduction does not matter. -/
theorem eval_eq {M : Type _} [AddCommMonoid M] (x : Nat → M) (t : SumTree) : t.eval x = (t.ranks.map x).sum := by
  induction t with
  | leaf p => simp [SumTree.eval, SumTree.ranks]
  | node l r ihl ihr => simp [SumTree.eval, SumTree.ranks, ihl, ihr]

theorem eval_allreduce {M : Type _} [AddCommMonoid M] {np : Nat} {t : SumTree} (h : t.ranks.Perm (List.range np))
    (x : Nat → M) : t.eval x = allreduce np x := by
  rw [eval_eq, allreduce_eq, ← sum_map_range]
  exact (h.map x).sum_eq

/-- The sum rank `p` contributes. -/
def rankSum [Zero R] [Add R] (data : Nat → Row R n) (g np nt : Nat) (a : Nat → Option (Fin k)) (c : Fin k)
    (j : Fin n) (p : Nat) : R :=
  Kmeans.sumAny (effThreads nt (procNrow g np p)) (Kmeans.threadRows (procNrow g np p) nt) (procData data g np p)
    (fun r => a (off g np p + r)) c j

/-- The clusters all ranks hold after an iteration that made the assignment `a`. -/
def clustersBy [Zero R] [Add R] [Div R] [IntCast R] (sum : Fin k → Fin n → (Nat → R) → R) (data : Nat → Row R n)
    (g np nt : Nat) (a : Nat → Option (Fin k)) : Clusters R k n :=
  { means := fun c j =>
      if 1 < Spec.count g a c then sum c j (rankSum data g np nt a c j) / ((Spec.count g a c : Int) : R)
      else sum c j (rankSum data g np nt a c j)
    num := fun c => (Spec.count g a c : Int)
    complete := fun _ => true }

/-- A rank's state after its local step, for any arithmetic. -/
def localAny [Zero R] [Add R] [LT D] [DecidableLT D] (dist : Row R n → Row R n → D) (big : D)
    (data : Nat → Row R n) (N nt : Nat) (s : Kmeans.KState R k n) : Kmeans.KState R k n :=
  let new := Kmeans.newAssign dist big data N s.cltrs.means s.assign
  { cltrs := { means := Kmeans.sumAny (effThreads nt N) (Kmeans.threadRows N nt) data new
               num := fun c => (Spec.count N new c : Int)
               complete := fun _ => false }
    assign := new
    counts := s.counts
    changed := numChanged N s.assign new }

theorem localStep_any [Zero R] [Add R] [LT D] [DecidableLT D] {dist : Row R n → Row R n → D} {big : D}
    {data : Nat → Row R n} {N nt : Nat} {sched : List Nat} {s : Kmeans.KState R k n}
    (hn : 0 < N) (hnt : 0 < nt) (hlt : N < 4294967296)
    (hc : Complete (effThreads nt N) (Kmeans.threadRows N nt) sched)
    (hb : ∀ r, r < N → ∃ c, Kmeans.emScan big (fun c => dist (data r) (s.cltrs.means c)) = some c) :
    localStep dist big data N nt sched s = .ok (localAny dist big data N nt s) := by
  have hsp := Kmeans.split_threadRows hn hnt hlt
  obtain ⟨c0, _⟩ := hb 0 hn
  set new := Kmeans.newAssign dist big data N s.cltrs.means s.assign with hnewdef
  have hnew : ∀ r, r < N → new r = some ((new r).getD c0) := by
    intro r hr
    obtain ⟨c, hc⟩ := hb r hr
    have : new r = some c := by rw [hnewdef]; unfold Kmeans.newAssign; rw [if_pos hr]; exact hc
    rw [this]; rfl
  obtain ⟨p, h1, _, h3, h4, h5⟩ := run_complete (μ := Option (Fin k)) (α := Kmeans.Acc R k n)
    (f := Kmeans.emRow dist big data s.cltrs.means) (T := effThreads nt N)
    (s0 := { mem := s.assign, acc := fun _ => Kmeans.Acc.init, todo := Kmeans.threadRows N nt })
    (newMem := new)
    (upd := fun r a =>
      { changed := if new r ≠ s.assign r then a.changed + 1 else a.changed
        loc := a.loc.addMember (data r) ((new r).getD c0) })
    hsp.disjoint hsp.idle
    (by
      intro t r a hr
      have hrN : r < N := (hsp.mem_iff r).1 ⟨t, hr⟩
      have e : Kmeans.emScan big (fun c => dist (data r) (s.cltrs.means c)) = new r := by
        rw [hnewdef]; unfold Kmeans.newAssign; rw [if_pos hrN]
      unfold Kmeans.emRow
      simp only [e]
      rw [hnew r hrN]
      simp)
    hc
  have hmem : p.mem = new := by
    funext r
    by_cases hr : r < N
    · obtain ⟨t, ht⟩ := (hsp.mem_iff r).2 hr
      exact h3 t r ht
    · rw [h4 r fun t ht => hr ((hsp.mem_iff r).1 ⟨t, ht⟩)]
      simp [hnewdef, Kmeans.newAssign, hr]
  obtain ⟨m1, m2⟩ := Kmeans.merge_any hsp data (fun r => (new r).getD c0) s.assign new hnew p.acc h5
  unfold localStep localAny
  rw [h1]
  simp only
  rw [hmem, m1, m2]

/-- An iteration of all ranks, for any arithmetic and any order of the reductions. -/
theorem iterationBy_any [Zero R] [Add R] [Div R] [IntCast R] [LT D] [DecidableLT D]
    {np : Nat} {sum : Fin k → Fin n → (Nat → R) → R} (hsum : ∀ c j x y, (∀ p, p < np → x p = y p) → sum c j x = sum c j y)
    {dist : Row R n → Row R n → D} {big : D}
    {data : Nat → Row R n} {g nt : Nat} {sched : Nat → List Nat}
    {procs : Nat → Kmeans.KState R k n} {A : Nat → Option (Fin k)} {cents : Fin k → Row R n}
    (hnp : 0 < np) (hg : np ≤ g) (hnt : 0 < nt) (hlt : g < 4294967296)
    (hc : ∀ p, p < np →
      Complete (effThreads nt (procNrow g np p)) (Kmeans.threadRows (procNrow g np p) nt) (sched p))
    (hs : Sync g np A cents procs)
    (hb : ∀ r, r < g → ∃ c, Kmeans.emScan big (fun c => dist (data r) (cents c)) = some c) :
    ∃ procs', iterationBy sum dist big data g np nt sched procs = .ok procs' ∧
      let B := Kmeans.newAssign dist big data g cents A
      Sync g np B (clustersBy sum data g np nt B).means procs' ∧
      ∀ p, p < np → (∀ c, (procs' p).counts c = (Spec.count g B c : Int)) ∧
        (procs' p).changed = numChanged g A B := by
  set B := Kmeans.newAssign dist big data g cents A with hB
  have hpl : ∀ p, p < np → procNrow g np p < 4294967296 := fun p hp => lt_of_le_of_lt (procNrow_le hp) hlt
  have hloc : ∀ p, p < np → localStep dist big (procData data g np p) (procNrow g np p) nt (sched p) (procs p) =
      .ok (localAny dist big (procData data g np p) (procNrow g np p) nt (procs p)) := fun p hp =>
    localStep_any (s := procs p) (data := procData data g np p) (dist := dist) (big := big)
      (procNrow_pos hnp hg) hnt (hpl p hp) (hc p hp)
      (fun r hr => by rw [hs.means p hp]; exact hb _ (off_lt hp hr))
  have hnewB : ∀ p r, p < np → r < procNrow g np p →
      Kmeans.newAssign dist big (procData data g np p) (procNrow g np p) (procs p).cltrs.means
        (procs p).assign r = B (off g np p + r) := by
    intro p r hp hr
    rw [hB]
    unfold Kmeans.newAssign
    rw [if_pos hr, if_pos (off_lt hp hr), hs.means p hp]
    rfl
  obtain ⟨loc, e1, h1⟩ := eachRank_ok (np := np) (d := procs) fun p hp => ⟨_, hloc p hp⟩
  have hl : ∀ p, p < np → localAny dist big (procData data g np p) (procNrow g np p) nt (procs p) = loc p := fun p hp => by
    have := h1 p hp
    rw [hloc p hp] at this
    simpa only [Except.ok.injEq] using this
  have hmeans : ∀ c j, sum c j (fun p => (loc p).cltrs.means c j) = sum c j (rankSum data g np nt B c j) := by
    intro c j
    apply hsum
    intro p hp
    rw [← hl p hp]
    simp only [localAny]
    unfold rankSum
    rw [Kmeans.sumAny_congr (Kmeans.split_threadRows (procNrow_pos hnp hg) hnt (hpl p hp)) fun r hr => hnewB p r hp hr]
  have hnum : ∀ c, allreduce np (fun p => (loc p).cltrs.num c) = (Spec.count g B c : Int) := by
    intro c
    rw [allreduce_eq, count_eq, ← sum_procs (g := g) hnp]
    apply Finset.sum_congr rfl
    intro p hp
    have hp := Finset.mem_range.1 hp
    rw [← hl p hp]
    simp only [localAny]
    rw [count_eq]
    apply Finset.sum_congr rfl
    intro r hr
    rw [hnewB p r hp (Finset.mem_range.1 hr)]
  have hch : allreduce np (fun p => (loc p).changed) = numChanged g A B := by
    rw [allreduce_eq, Kmeans.numChanged_eq_sum, ← sum_procs (g := g) hnp]
    apply Finset.sum_congr rfl
    intro p hp
    have hp := Finset.mem_range.1 hp
    rw [← hl p hp]
    simp only [localAny]
    rw [Kmeans.numChanged_eq_sum]
    apply Finset.sum_congr rfl
    intro r hr
    rw [hnewB p r hp (Finset.mem_range.1 hr), hs.assign p r hp (Finset.mem_range.1 hr)]
  have hsome : ∀ r, r < g → ∃ c, B r = some c := by
    intro r hr
    obtain ⟨c, hcc⟩ := hb r hr
    exact ⟨c, by rw [hB]; unfold Kmeans.newAssign; rw [if_pos hr, hcc]⟩
  have hafter : ∀ p, p < np → afterReduce g
      (fun c j => sum c j fun p => (loc p).cltrs.means c j)
      (fun c => allreduce np fun p => (loc p).cltrs.num c)
      (allreduce np fun p => (loc p).changed) (loc p) =
      .ok { cltrs := clustersBy sum data g np nt B, assign := (loc p).assign
            counts := fun c => (Spec.count g B c : Int), changed := numChanged g A B } := by
    intro p hp
    unfold afterReduce
    have hchk : (List.finRange k).foldl (fun m i => m + (((loc p).cltrs.setMeans
        (fun c j => sum c j fun p => (loc p).cltrs.means c j)).setNum
        (fun c => allreduce np fun p => (loc p).cltrs.num c)).num i) (0 : Int) = (g : Int) := by
      rw [Kmeans.foldl_add_eq, Kmeans.sum_finRange, zero_add]
      simp only [Clusters.setNum, hnum]
      rw [← Nat.cast_sum, Kmeans.sum_count_of_all_assigned g B hsome]
    simp only
    rw [if_neg (by rw [hchk]; simp)]
    have hcomp : (loc p).cltrs.complete = fun _ => false := by rw [← hl p hp]; rfl
    have hfin : (((loc p).cltrs.setMeans
        (fun c j => sum c j fun p => (loc p).cltrs.means c j)).setNum
        (fun c => allreduce np fun p => (loc p).cltrs.num c)).finalizeAll
        = clustersBy sum data g np nt B := by
      apply Clusters.ext
      · funext c j
        rw [Clusters.finalizeAll_means]
        unfold Clusters.finMean clustersBy
        simp only [Clusters.setNum, Clusters.setMeans, hcomp, hnum, Bool.false_eq_true, if_false]
        by_cases h : 1 < Spec.count g B c
        · rw [if_pos h, if_pos (by exact_mod_cast h), hmeans]
        · rw [if_neg h, if_neg (by exact_mod_cast h), hmeans]
      · rw [Clusters.finalizeAll_num]; funext c; exact hnum c
      · funext c; rw [Clusters.finalizeAll_complete]; rfl
    rw [hfin, hch]
    congr 2
    funext c; exact hnum c
  obtain ⟨procs', e2, h2⟩ := eachRank_ok (np := np) (d := loc) fun p hp => ⟨_, hafter p hp⟩
  have hp' : ∀ p, p < np → procs' p =
      { cltrs := clustersBy sum data g np nt B
        assign := (loc p).assign
        counts := fun c => (Spec.count g B c : Int)
        changed := numChanged g A B } := by
    intro p hp
    have := h2 p hp
    rw [hafter p hp] at this
    simp only [Except.ok.injEq] at this
    exact this.symm
  refine ⟨procs', ?_, ⟨?_, ?_⟩, ?_⟩
  · unfold iterationBy; rw [e1]; exact e2
  · intro p r hp hr
    rw [hp' p hp]
    simp only
    rw [← hl p hp]
    exact hnewB p r hp hr
  · intro p hp; rw [hp' p hp]
  · intro p hp; rw [hp' p hp]; exact ⟨fun _ => rfl, rfl⟩

/-! ### Rounding -/

section Near

variable [Zero R] [Add R] [Div R] [IntCast R] [Field F] [LinearOrder F]
  [IsStrictOrderedRing F] {fin : R → Prop} {val : R → F} {u η M X B : F} {K : Nat}
  {data : Nat → Row R n} {g np nt W : Nat}

/-- What the run theorem assumes about sizes: rows at most `X`, everything at most `B`; `W` bounds the number of
additions a rank makes for one sum. -/
structure JobSizes (fin : R → Prop) (val : R → F) (u η M X B : F) (K g np nt W : Nat) (data : Nat → Row R n) :
    Prop where
  np_pos : 0 < np
  np_le : np ≤ g
  nt_pos : 0 < nt
  g_lt : g < 4294967296
  g_le : g ≤ K
  width : ∀ p, p < np → procNrow g np p / effThreads nt (procNrow g np p) +
    procNrow g np p % effThreads nt (procNrow g np p) + effThreads nt (procNrow g np p) ≤ W
  rows : ∀ r, r < g → InBox fin val X (data r)
  x_le : X ≤ B
  mean_le : (1 + u) ^ (W + np) * X + η ≤ B
  sum_le : (1 + u) ^ (W + np) * (g * X) ≤ M

omit [Zero R] [Add R] [Div R] [IntCast R] [LinearOrder F] [IsStrictOrderedRing F] in
theorem memberSum_procs (hnp : 0 < np) (f : Nat → Fin n → F) (a : Nat → Option (Fin k)) (c : Fin k) (j : Fin n) :
    ((List.range np).map fun p => memberSum (procNrow g np p) (fun r j => f (off g np p + r) j)
      (fun r => a (off g np p + r)) c j).sum = memberSum g f a c j := by
  rw [memberSum_eq, ← sum_procs (g := g) hnp, sum_map_range]
  apply Finset.sum_congr rfl
  intro p _
  rw [memberSum_eq]

/-- Error of a reduced sum. -/
theorem reduced_near (hR : Rounds fin val u η M K) (hS : JobSizes fin val u η M X B K g np nt W data) {t : SumTree}
    (ht : t.ranks.Perm (List.range np)) (a : Nat → Option (Fin k)) (c : Fin k) (j : Fin n) :
    Near fin val u (W + (np - 1)) (t.eval (rankSum data g np nt a c j)) (memberSum g (fun r j => val (data r j)) a c j)
      (memberSum g (fun r j => |val (data r j)|) a c j) := by
  have hu := hR.u_nonneg
  have hX0 : 0 ≤ X := (abs_nonneg _).trans (hS.rows 0 (lt_of_lt_of_le hS.np_pos hS.np_le) j).2
  have hle : ∀ a : Nat → Option (Fin k), memberSum g (fun r j => |val (data r j)|) a c j ≤ g * X := fun a =>
    (Kmeans.memberSum_abs_le hS.rows a c j).trans (mul_le_mul_of_nonneg_right (by exact_mod_cast Kmeans.count_le a c) hX0)
  have hM : ∀ {m : Nat} {b : F}, m ≤ W + np → 0 ≤ b → b ≤ memberSum g (fun r j => |val (data r j)|) a c j →
      (1 + u) ^ m * b ≤ M := by
    intro m b hm hb0 hb
    refine le_trans ?_ hS.sum_le
    exact mul_le_mul (pow_le_pow_right₀ (by linarith) hm) (hb.trans (hle a)) hb0 (pow_nonneg (by linarith) _)
  have hpsum := memberSum_procs (g := g) hS.np_pos (fun r j => |val (data r j)|) a c j
  have hp0 : ∀ p, 0 ≤ memberSum (procNrow g np p) (fun r j => |val (data (off g np p + r) j)|)
      (fun r => a (off g np p + r)) c j := fun p => Finset.sum_nonneg fun _ _ => abs_nonneg _
  have hloc : ∀ p ∈ t.ranks, Near fin val u W (rankSum data g np nt a c j p)
      (memberSum (procNrow g np p) (fun r j => val (data (off g np p + r) j)) (fun r => a (off g np p + r)) c j)
      (memberSum (procNrow g np p) (fun r j => |val (data (off g np p + r) j)|) (fun r => a (off g np p + r)) c j) := by
    intro p hp
    have hpn : p < np := List.mem_range.1 (ht.mem_iff.1 hp)
    refine (Kmeans.sumAny_near hR (Kmeans.split_threadRows (procNrow_pos hS.np_pos hS.np_le) hS.nt_pos
      (lt_of_le_of_lt (procNrow_le hpn) hS.g_lt)) Kmeans.threadRows_length (procData data g np p)
      (fun r hr j => (hS.rows _ (off_lt hpn hr) j).1) _ c j ?_).mono hu (hS.width p hpn)
    refine hM ((hS.width p hpn).trans (by omega)) (hp0 p) ?_
    rw [← hpsum]
    apply List.single_le_sum
    · intro z hz
      obtain ⟨q, _, rfl⟩ := List.mem_map.1 hz
      exact hp0 q
    · exact List.mem_map.2 ⟨p, List.mem_range.2 hpn, rfl⟩
  have hlen : t.ranks.length = np := by rw [ht.length_eq, List.length_range]
  have e : ∀ f : Nat → F, (t.ranks.map f).sum = ((List.range np).map f).sum := fun f => (ht.map f).sum_eq
  have := (near_tree hR _ _ _ t hloc (by
    rw [e, hpsum, hlen]
    exact hM le_rfl (Finset.sum_nonneg fun _ _ => abs_nonneg _) le_rfl)).1
  rw [e, e, hpsum, memberSum_procs (g := g) hS.np_pos (fun r j => val (data r j)), hlen] at this
  exact this

/-- Error of a centroid. -/
theorem clustersBy_near (hR : Rounds fin val u η M K) (hS : JobSizes fin val u η M X B K g np nt W data)
    {tree : Fin k → Fin n → SumTree} (ht : ∀ c j, (tree c j).ranks.Perm (List.range np))
    (a : Nat → Option (Fin k)) (c : Fin k) (j : Fin n) :
    let m := clustersBy (fun c j x => (tree c j).eval x) data g np nt a
    (fin (m.means c j) ∧ |val (m.means c j)| ≤ B) ∧
    |val (m.means c j) - memberMean g (fun r j => val (data r j)) a c j| ≤
      ((1 + u) ^ (W + np) - 1) * memberMean g (fun r j => |val (data r j)|) a c j + η := by
  intro m
  have hu := hR.u_nonneg
  have hnp := hS.np_pos
  have hX0 : 0 ≤ X := (abs_nonneg _).trans (hS.rows 0 (lt_of_lt_of_le hS.np_pos hS.np_le) j).2
  have hs := reduced_near hR hS (ht c j) a c j
  have hS0 : 0 ≤ memberSum g (fun r j => |val (data r j)|) a c j := (abs_nonneg _).trans hs.le
  have hcount : Spec.count g a c ≤ g := Kmeans.count_le a c
  have hsum := Kmeans.memberSum_abs_le hS.rows a c j
  have hexp : W + (np - 1) + 1 = W + np := by omega
  have main : fin (m.means c j) ∧ |val (m.means c j) - memberMean g (fun r j => val (data r j)) a c j| ≤
      ((1 + u) ^ (W + np) - 1) * memberMean g (fun r j => |val (data r j)|) a c j + η := by
    simp only [m]
    unfold clustersBy memberMean
    simp only
    by_cases h1 : 1 < Spec.count g a c
    · rw [if_pos h1, if_neg (by omega), if_neg (by omega)]
      have hd := hs.div hR (q := Spec.count g a c) (by omega) (hcount.trans hS.g_le) (by
        refine le_trans ?_ hS.sum_le
        refine mul_le_mul (pow_le_pow_right₀ (by linarith) (by omega)) ?_ (div_nonneg hS0 (Nat.cast_nonneg _))
          (pow_nonneg (by linarith) _)
        refine (div_le_self hS0 ?_).trans (hsum.trans (mul_le_mul_of_nonneg_right (by exact_mod_cast hcount) hX0))
        have : 1 ≤ Spec.count g a c := by omega
        exact_mod_cast this)
      rw [hexp] at hd
      exact hd
    · rw [if_neg h1]
      refine ⟨hs.fin, ?_⟩
      by_cases h0 : Spec.count g a c = 0
      · rw [if_pos h0, if_pos h0]
        have hz : ∀ f : Nat → Row F n, memberSum g f a c j = 0 := by
          intro f
          unfold Spec.count at h0
          rw [Finset.card_eq_zero] at h0
          unfold memberSum
          rw [h0]; simp
        have := hs.err
        rw [hz, hz] at this
        have h2 := hR.eta_nonneg
        simp only [mul_zero] at this
        linarith
      · rw [if_neg h0, if_neg h0]
        have e : Spec.count g a c = 1 := by omega
        rw [e, Nat.cast_one, div_one, div_one]
        have := (hs.mono hu (show _ ≤ W + np by omega)).err
        exact this.trans (le_add_of_nonneg_right hR.eta_nonneg)
  refine ⟨⟨main.1, ?_⟩, main.2⟩
  have ha : memberMean g (fun r j => |val (data r j)|) a c j ≤ X := by
    unfold memberMean
    split
    · exact hX0
    · rename_i h0
      rw [div_le_iff₀ (by exact_mod_cast Nat.pos_of_ne_zero h0), mul_comm]
      exact hsum
  have hm : |memberMean g (fun r j => val (data r j)) a c j| ≤
      memberMean g (fun r j => |val (data r j)|) a c j := by
    unfold memberMean
    split
    · simp
    · rw [abs_div, Nat.abs_cast]
      apply div_le_div_of_nonneg_right _ (Nat.cast_nonneg _)
      exact Finset.abs_sum_le_sum_abs _ _
  have h2 := main.2
  have hp := one_le_pow_u hu (W + np)
  set e := (1 + u) ^ (W + np) with he
  refine le_trans ?_ hS.mean_le
  calc |val (m.means c j)| = |(val (m.means c j) - memberMean g (fun r j => val (data r j)) a c j) +
          memberMean g (fun r j => val (data r j)) a c j| := by congr 1; ring
    _ ≤ _ := abs_add_le _ _
    _ ≤ ((e - 1) * memberMean g (fun r j => |val (data r j)|) a c j + η) +
        memberMean g (fun r j => |val (data r j)|) a c j := add_le_add h2 hm
    _ = e * memberMean g (fun r j => |val (data r j)|) a c j + η := by ring
    _ ≤ _ := add_le_add (mul_le_mul_of_nonneg_left ha (by positivity)) le_rfl

end Near

theorem eval_congr {M : Type _} [Add M] {np : Nat} {x y : Nat → M} (h : ∀ p, p < np → x p = y p) :
    ∀ t : SumTree, (∀ p ∈ t.ranks, p < np) → t.eval x = t.eval y
  | .leaf p, ht => h p (ht p (by simp [SumTree.ranks]))
  | .node l r, ht => by
    simp only [SumTree.eval]
    rw [eval_congr h l fun p hp => ht p (by simp [SumTree.ranks, hp]),
      eval_congr h r fun p hp => ht p (by simp [SumTree.ranks, hp])]

/-! ### The run -/

section Run

variable [Zero R] [Add R] [Sub R] [Mul R] [Div R] [IntCast R] [LT R] [DecidableLT R]
  [NatCast R] [LE R] [DecidableLE R] [Field F] [LinearOrder F]
  [IsStrictOrderedRing F] {fin : R → Prop} {val : R → F} {u η M X B : F} {K : Nat}
  {data : Nat → Row R n} {g np nt W : Nat} {dist : Row R n → Row R n → R} {big : R}
  {dF : (Fin n → F) → (Fin n → F) → F} {γ ζ : F} {cents0 : Fin k → Row R n}
  {tree : Nat → Fin k → Fin n → SumTree}

/-- Centroids and assignment of the job after `i` iterations, in the arithmetic of `R`. -/
def trBy (sum : Nat → Fin k → Fin n → (Nat → R) → R) (dist : Row R n → Row R n → R) (big : R)
    (data : Nat → Row R n) (g np nt : Nat) (cents0 : Fin k → Row R n) : Nat → Snap R k n
  | 0 => ⟨cents0, fun _ => none⟩
  | i + 1 =>
    let s := trBy sum dist big data g np nt cents0 i
    let a := Kmeans.newAssign dist big data g s.cents s.assign
    ⟨(clustersBy (sum i) data g np nt a).means, a⟩

/-- The trace of the job. -/
abbrev trJob (tree : Nat → Fin k → Fin n → SumTree) (dist : Row R n → Row R n → R) (big : R)
    (data : Nat → Row R n) (g np nt : Nat) (cents0 : Fin k → Row R n) : Nat → Snap R k n :=
  trBy (fun i c j x => (tree i c j).eval x) dist big data g np nt cents0

omit [Sub R] [Mul R] [NatCast R] [LE R] [DecidableLE R] in
theorem trJob_box (hR : Rounds fin val u η M K) (hS : JobSizes fin val u η M X B K g np nt W data)
    (ht : ∀ i c j, (tree i c j).ranks.Perm (List.range np)) (h0 : ∀ c, InBox fin val B (cents0 c)) :
    ∀ i c, InBox fin val B ((trJob tree dist big data g np nt cents0 i).cents c)
  | 0, c => h0 c
  | i + 1, c => fun j => (clustersBy_near hR hS (ht i) _ c j).1

omit [NatCast R] [LE R] [DecidableLE R] in
theorem trJob_scan (hA : RoundsAll fin val u η M K) (hk : 0 < k) (hD : DistRounds fin val B dist big dF γ ζ)
    (hS : JobSizes fin val u η M X B K g np nt W data)
    (ht : ∀ i c j, (tree i c j).ranks.Perm (List.range np))
    (h0 : ∀ c, InBox fin val B (cents0 c)) (i r : Nat) (hr : r < g) :
    ∃ c, Kmeans.emScan big (fun c => dist (data r) ((trJob tree dist big data g np nt cents0 i).cents c)) = some c ∧
      NearNearest γ ζ (fun c => dF (fun j => val (data r j)) fun j =>
        val ((trJob tree dist big data g np nt cents0 i).cents c j)) c :=
  Kmeans.scan_near hA hk hD (Kmeans.InBox.mono (hS.rows r hr) hS.x_le) (trJob_box hA.toRounds hS ht h0 i)

omit [NatCast R] [LE R] [DecidableLE R] in
theorem trJob_step (hA : RoundsAll fin val u η M K) (hk : 0 < k) (hD : DistRounds fin val B dist big dF γ ζ)
    (hS : JobSizes fin val u η M X B K g np nt W data)
    (ht : ∀ i c j, (tree i c j).ranks.Perm (List.range np)) (h0 : ∀ c, InBox fin val B (cents0 c)) (i : Nat) :
    NearLloydStep dF γ ζ ((1 + u) ^ (W + np) - 1) η g
      (fun r j => val (data r j)) (Kmeans.snapVal val (trJob tree dist big data g np nt cents0 i))
      (Kmeans.snapVal val (trJob tree dist big data g np nt cents0 (i + 1))) where
  assigned := by
    intro r hr
    obtain ⟨c, h1, h2⟩ := trJob_scan hA hk hD hS ht h0 i r hr
    refine ⟨c, ?_, h2⟩
    change Kmeans.newAssign dist big data g _ _ r = some c
    unfold Kmeans.newAssign
    rw [if_pos hr]
    exact h1
  means := fun c j => (clustersBy_near hA.toRounds hS (ht i) _ c j).2

/-- The whole job follows the trace. -/
theorem runBy_trace (hA : RoundsAll fin val u η M K) (hk : 0 < k) (hD : DistRounds fin val B dist big dF γ ζ)
    (hS : JobSizes fin val u η M X B K g np nt W data)
    (ht : ∀ i c j, (tree i c j).ranks.Perm (List.range np)) (h0 : ∀ c, InBox fin val B (cents0 c))
    {procs : Nat → Kmeans.KState R k n} (hp0 : ∀ p, p < np → (procs p).cltrs.means = cents0)
    (tol : R) {maxIters : Nat} (hmax : 0 < maxIters) {sched : Nat → Nat → List Nat}
    (hc : ∀ i p, p < np → Complete (effThreads nt (procNrow g np p))
      (Kmeans.threadRows (procNrow g np p) nt) (sched i p)) :
    let tr := trJob tree dist big data g np nt cents0
    let stops := fun i => Kmeans.convTest g tol (numChanged g (tr (i - 1)).assign (tr i).assign) = true
    ∃ res, runBy (fun i c j x => (tree i c j).eval x) dist big data g np nt tol maxIters sched procs = .ok res ∧
      1 ≤ res.iters ∧ res.iters ≤ maxIters ∧ (∀ j, 1 ≤ j → j < res.iters → ¬ stops j) ∧
      (stops res.iters ∨ res.iters = maxIters) ∧
      ∀ p, p < np → (res.procs p).cltrs.means = (tr res.iters).cents ∧
        (∀ r, r < procNrow g np p → (res.procs p).assign r = (tr res.iters).assign (off g np p + r)) ∧
        (∀ c, (res.procs p).counts c = (Spec.count g (tr res.iters).assign c : Int)) := by
  intro tr stops
  have hnp := hS.np_pos
  let Inv : Nat → (Nat → Kmeans.KState R k n) → Prop := fun i ps =>
    (∀ p, p < np → (ps p).cltrs.means = (tr i).cents) ∧
    (∀ j, 1 ≤ j → j < i → ¬ stops j) ∧
    (i ≠ 0 → ∀ p, p < np →
      (∀ r, r < procNrow g np p → (ps p).assign r = (tr i).assign (off g np p + r)) ∧
      (∀ c, (ps p).counts c = (Spec.count g (tr i).assign c : Int)) ∧
      (ps p).changed = numChanged g (tr (i - 1)).assign (tr i).assign)
  unfold runBy
  rw [construct_ok hnp hS.np_le]
  simp only
  obtain ⟨res, e, ⟨i1, i2, i3⟩, _, h2, h3⟩ := loop_inv
    (stop := fun s : Kmeans.KState R k n => Kmeans.convTest g tol s.changed)
    (body := fun i procs =>
        let procs1 := if i = 0 then fun p => { procs p with assign := fun _ => none } else procs
        iterationBy (fun c j x => (tree i c j).eval x) dist big data g np nt (sched i) procs1) hnp hmax Inv
    (by
      rintro i ps hi ⟨j1, j2, j3⟩ hst
      simp only
      set ps1 : Nat → Kmeans.KState R k n :=
        if i = 0 then fun p => { ps p with assign := fun _ => none } else ps with hps1
      have hsync : Sync g np (tr i).assign (tr i).cents ps1 := by
        by_cases hi0 : i = 0
        · subst hi0
          refine ⟨?_, ?_⟩
          · intro p r _ _; simp only [hps1, if_true]; rfl
          · intro p hp; simp only [hps1, if_true]; exact j1 p hp
        · rw [hps1, if_neg hi0]
          exact ⟨fun p r hp hr => (j3 hi0 p hp).1 r hr, j1⟩
      obtain ⟨ps', e', s', c'⟩ := iterationBy_any (sum := fun c j x => (tree i c j).eval x) (big := big) (dist := dist)
        (data := data)
        (fun c j x y h => eval_congr h _ fun p hp => List.mem_range.1 ((ht i c j).mem_iff.1 hp))
        hnp hS.np_le hS.nt_pos hS.g_lt (hc i) hsync
        (fun r hr => by
          obtain ⟨c, h1, _⟩ := trJob_scan (tree := tree) (cents0 := cents0) hA hk hD hS ht h0 i r hr
          exact ⟨c, h1⟩)
      refine ⟨ps', e', ⟨s'.means, ?_, ?_⟩, ?_⟩
      · intro j hj1 hj2
        by_cases hji : j = i
        · subst hji
          have hi0 : j ≠ 0 := by omega
          rcases hst with h | h
          · exact absurd h hi0
          · intro hstop
            rw [(j3 hi0 0 hnp).2.2] at h
            simp only [stops] at hstop
            rw [h] at hstop
            simp at hstop
        · exact j2 j hj1 (by omega)
      · intro _ p hp
        exact ⟨fun r hr => s'.assign p r hp hr, (c' p hp).1, (c' p hp).2⟩
      · intro p hp
        rw [(c' p hp).2, (c' 0 hnp).2])
    maxIters 0 procs (by omega) (by omega)
    ⟨fun p hp => by rw [hp0 p hp]; rfl, fun j h1 h2 => by omega, fun h => absurd rfl h⟩
    (Or.inl rfl)
  have hit : res.iters ≠ 0 := by
    rcases h3 with ⟨h, _⟩ | ⟨h, _⟩ <;> omega
  refine ⟨res, e, by omega, h2, i2, ?_, fun p hp => ⟨i1 p hp, (i3 hit p hp).1, (i3 hit p hp).2.1⟩⟩
  rcases h3 with ⟨h, _⟩ | ⟨_, h⟩
  · exact Or.inr h
  · refine Or.inl ?_
    rw [(i3 hit 0 hnp).2.2] at h
    exact h

omit [NatCast R] [LE R] [DecidableLE R] in
/-- If no row changed its cluster and reductions are always made in the same order, the centroids did not change
either. -/
theorem trJob_fixed (hA : RoundsAll fin val u η M K) (hk : 0 < k) (hD : DistRounds fin val B dist big dF γ ζ)
    (hS : JobSizes fin val u η M X B K g np nt W data)
    (ht : ∀ i c j, (tree i c j).ranks.Perm (List.range np)) (h0 : ∀ c, InBox fin val B (cents0 c))
    (hfix : ∀ i, tree i = tree 0) {m : Nat} (hm : 1 ≤ m)
    (h : numChanged g (trJob tree dist big data g np nt cents0 (m - 1)).assign
      (trJob tree dist big data g np nt cents0 m).assign = 0) :
    (trJob tree dist big data g np nt cents0 (m - 1)).cents = (trJob tree dist big data g np nt cents0 m).cents := by
  obtain ⟨i, rfl⟩ : ∃ i, m = i + 1 := ⟨m - 1, by omega⟩
  rw [Nat.add_sub_cancel] at h ⊢
  have hg : 0 < g := lt_of_lt_of_le hS.np_pos hS.np_le
  have heq : ∀ r, r < g → (trJob tree dist big data g np nt cents0 i).assign r =
      (trJob tree dist big data g np nt cents0 (i + 1)).assign r := by
    intro r hr
    by_contra hne
    unfold numChanged at h
    rw [Finset.card_eq_zero] at h
    have : r ∈ (Finset.range g).filter fun r => (trJob tree dist big data g np nt cents0 i).assign r ≠
        (trJob tree dist big data g np nt cents0 (i + 1)).assign r :=
      Finset.mem_filter.2 ⟨Finset.mem_range.2 hr, hne⟩
    rw [h] at this
    simp at this
  cases i with
  | zero =>
    obtain ⟨c, h1, _⟩ := (trJob_step (tree := tree) hA hk hD hS ht h0 0).assigned 0 hg
    have e := heq 0 hg
    have h1' : (trJob tree dist big data g np nt cents0 (0 + 1)).assign 0 = some c := h1
    rw [h1'] at e
    cases e
  | succ i =>
    have hout : ∀ i r, ¬ r < g → (trJob tree dist big data g np nt cents0 i).assign r = none := by
      intro i r hr
      induction i with
      | zero => rfl
      | succ i ih =>
        change Kmeans.newAssign dist big data g _ _ r = none
        unfold Kmeans.newAssign
        rw [if_neg hr]
        exact ih
    have hall : (trJob tree dist big data g np nt cents0 (i + 1)).assign =
        (trJob tree dist big data g np nt cents0 (i + 1 + 1)).assign := by
      funext r
      by_cases hr : r < g
      · exact heq r hr
      · rw [hout _ r hr, hout _ r hr]
    change (clustersBy (fun c j x => (tree i c j).eval x) data g np nt
        (trJob tree dist big data g np nt cents0 (i + 1)).assign).means =
      (clustersBy (fun c j x => (tree (i + 1) c j).eval x) data g np nt
        (trJob tree dist big data g np nt cents0 (i + 1 + 1)).assign).means
    rw [hall, hfix i, hfix (i + 1)]

end Run

end Knor.Distr
